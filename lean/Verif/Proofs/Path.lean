import Verif.Model.Path
import Verif.Spec.Path
/-
Lemmas for C68: paths.
-/
namespace Coniks
open Spec

theorem isAbs_iff (p : Bytes) : isAbs p = true ↔ Absolute p := by
  cases p with
  | nil => simp [isAbs, Absolute]
  | cons c t =>
    unfold isAbs Absolute
    by_cases h : c = 0x2F
    · subst h; simp
    · constructor
      · intro h'; split at h'
        · simp_all
        · exact nomatch h'
      · intro h'; simp_all

theorem isAbs_false (p : Bytes) : isAbs p = false ↔ ¬ Absolute p := by rw [← isAbs_iff]; simp

theorem names_ne_nil (p : Bytes) : names p ≠ [] := by
  cases p with
  | nil => simp [names]
  | cons c t =>
    unfold names
    split
    · simp
    · split <;> simp

theorem names_cons (c : UInt8) (t : Bytes) (h : c ≠ 0x2F) : ∃ n ns, names t = n :: ns ∧ names (c :: t) = (c :: n) :: ns := by
  rcases hn : names t with _ | ⟨n, ns⟩
  · exact absurd hn (names_ne_nil t)
  · refine ⟨n, ns, rfl, ?_⟩
    conv => lhs; unfold names
    rw [if_neg h, hn]

theorem splitPath_eq : ∀ (p acc : Bytes), ∃ n ns, names p = n :: ns ∧ splitPath acc p = (acc.reverse ++ n) :: ns
  | [], acc => ⟨[], [], rfl, by simp [splitPath]⟩
  | c :: t, acc => by
    by_cases h : c = 0x2F
    · subst h
      obtain ⟨n, ns, h1, h2⟩ := splitPath_eq t []
      refine ⟨[], names t, by simp [names], ?_⟩
      simp [splitPath, h1, h2]
    · obtain ⟨n, ns, h1, h2⟩ := names_cons c t h
      obtain ⟨n', ns', h3, h4⟩ := splitPath_eq t (c :: acc)
      rw [h1] at h3
      injection h3 with h3 h5
      subst h3 h5
      exact ⟨c :: n, ns, h2, by simp [splitPath, h, h4]⟩

theorem splitPath_names (p : Bytes) : splitPath [] p = names p := by
  obtain ⟨n, ns, h1, h2⟩ := splitPath_eq p []
  rw [h1, h2]; rfl

theorem names_append : ∀ (a b : Bytes), names (a ++ 0x2F :: b) = names a ++ names b
  | [], b => by simp [names]
  | c :: t, b => by
    by_cases h : c = 0x2F
    · subst h; simp [names, names_append t b]
    · obtain ⟨n, ns, h1, h2⟩ := names_cons c t h
      obtain ⟨n', ns', h3, h4⟩ := names_cons c (t ++ 0x2F :: b) h
      rw [names_append t b, h1] at h3
      injection h3 with h3 h5
      subst h3 h5
      rw [List.cons_append, h4, h2]; rfl

theorem names_noslash : ∀ (e : Bytes), 0x2F ∉ e → names e = [e]
  | [], _ => rfl
  | c :: t, h => by
    have h1 : c ≠ 0x2F := fun hc => h (hc ▸ List.mem_cons_self ..)
    obtain ⟨n, ns, h2, h3⟩ := names_cons c t h1
    rw [names_noslash t fun ht => h (List.mem_cons_of_mem _ ht)] at h2
    injection h2 with h2 h4
    subst h2 h4
    exact h3

theorem mem_names_noslash : ∀ (p e : Bytes), e ∈ names p → 0x2F ∉ e
  | [], e, h => by simp [names] at h; simp [h]
  | c :: t, e, h => by
    by_cases hc : c = 0x2F
    · subst hc
      simp [names] at h
      rcases h with rfl | h
      · simp
      · exact mem_names_noslash t e h
    · obtain ⟨n, ns, h2, h3⟩ := names_cons c t hc
      rw [h3] at h
      rcases List.mem_cons.mp h with rfl | h
      · have := mem_names_noslash t n (by rw [h2]; exact List.mem_cons_self ..)
        intro hm
        rcases List.mem_cons.mp hm with h | h
        · exact hc h.symm
        · exact this h
      · exact mem_names_noslash t e (by rw [h2]; exact List.mem_cons_of_mem _ h)

theorem joinPath_cons (e e' : Bytes) (es : List Bytes) : joinPath (e :: e' :: es) = e ++ 0x2F :: joinPath (e' :: es) := rfl

theorem names_joinPath : ∀ (es : List Bytes), es ≠ [] → (∀ e ∈ es, 0x2F ∉ e) → names (joinPath es) = es
  | [], h, _ => absurd rfl h
  | [e], _, h => names_noslash e (h e (by simp))
  | e :: e' :: es, _, h => by
    rw [joinPath_cons, names_append, names_noslash e (h e (by simp)),
      names_joinPath (e' :: es) (by simp) fun x hx => h x (List.mem_cons_of_mem _ hx)]
    rfl

theorem slash_joinPath : ∀ (es : List Bytes), es ≠ [] → 0x2F :: joinPath es = es.flatMap (0x2F :: ·)
  | [], h => absurd rfl h
  | [e], _ => by simp [joinPath]
  | e :: e' :: es, _ => by
    rw [joinPath_cons, List.flatMap_cons, slash_joinPath (e' :: es) (by simp)]; simp

theorem joinPath_eq_nil {es : List Bytes} (h : ∀ e ∈ es, e ≠ []) (he : joinPath es = []) : es = [] := by
  match es with
  | [] => rfl
  | [e] => exact absurd he (h e (by simp))
  | e :: e' :: es => rw [joinPath_cons] at he; simp at he

/-- what `Clean` writes: proper names, or `..` -/
def Elem (e : Bytes) : Prop := e ≠ [] ∧ e ≠ [0x2E] ∧ 0x2F ∉ e

theorem cleanStep_inv {rooted : Bool} {out : List Bytes} {e : Bytes} (ho : ∀ x ∈ out, Elem x) (he : 0x2F ∉ e) :
    ∀ x ∈ cleanStep rooted out e, Elem x := by
  unfold cleanStep
  split
  · exact ho
  · split
    · exact ho
    · split
      · subst_vars
        split
        · split <;> simp [Elem]
        · split
          · intro x hx
            rcases List.mem_cons.mp hx with rfl | hx
            · simp [Elem]
            · exact ho x hx
          · intro x hx; exact ho x (List.mem_cons_of_mem _ hx)
      · intro x hx
        rcases List.mem_cons.mp hx with rfl | hx
        · exact ⟨‹_›, ‹_›, he⟩
        · exact ho x hx

theorem cleanStep_walk {rooted : Bool} {out : List Bytes} {e : Bytes} (ho : ∀ x ∈ out, Elem x) (base : Place) (hb : rooted = true → base = []) :
    (cleanStep rooted out e).reverse.foldl walk base = walk (out.reverse.foldl walk base) e := by
  unfold cleanStep
  split
  · subst_vars; simp [walk]
  · split
    · subst_vars; simp [walk]
    · split
      · subst_vars
        cases out with
        | nil =>
          cases rooted with
          | true => simp [hb rfl, walk]
          | false => simp
        | cons o out =>
          simp only
          split
          · simp
          · rename_i h
            have := ho o (by simp)
            simp only [List.reverse_cons, List.foldl_append, List.foldl_cons, List.foldl_nil]
            generalize List.foldl walk base out.reverse = P
            conv => rhs; arg 1; unfold walk
            rw [if_neg (fun h' => h'.elim this.1 this.2.1), if_neg h]
            simp [walk]
      · simp

theorem clean_inv {rooted : Bool} : ∀ (es out : List Bytes), (∀ x ∈ out, Elem x) → (∀ e ∈ es, 0x2F ∉ e) →
    (∀ x ∈ es.foldl (cleanStep rooted) out, Elem x) ∧
    ∀ (base : Place), (rooted = true → base = []) →
      (es.foldl (cleanStep rooted) out).reverse.foldl walk base = es.foldl walk (out.reverse.foldl walk base)
  | [], out, ho, _ => ⟨ho, fun _ _ => rfl⟩
  | e :: es, out, ho, he => by
    have h1 := cleanStep_inv (rooted := rooted) ho (he e (by simp))
    obtain ⟨h2, h3⟩ := clean_inv (rooted := rooted) es (cleanStep rooted out e) h1 fun x hx => he x (List.mem_cons_of_mem _ hx)
    refine ⟨h2, fun base hb => ?_⟩
    rw [List.foldl_cons, h3 base hb, cleanStep_walk ho base hb]
    rfl

/-- the elements `Clean` keeps -/
def kept (p : Bytes) : List Bytes := (names p).foldl (cleanStep (isAbs p)) []

theorem kept_elem (p : Bytes) : ∀ x ∈ kept p, Elem x :=
  (clean_inv _ [] (by simp) (mem_names_noslash p)).1

theorem kept_walk (p : Bytes) (cwd : Place) :
    (kept p).reverse.foldl walk (if Absolute p then [] else cwd) = locate cwd p := by
  have := (clean_inv (rooted := isAbs p) (names p) [] (by simp) (mem_names_noslash p)).2 (if Absolute p then [] else cwd)
    (fun h => if_pos ((isAbs_iff p).mp h))
  exact this

theorem cleanPath_eq (p : Bytes) : cleanPath p =
    if isAbs p then 0x2F :: joinPath (kept p).reverse
    else if joinPath (kept p).reverse = [] then [0x2E] else joinPath (kept p).reverse := by
  unfold cleanPath kept
  rw [splitPath_names]

theorem joinPath_head {es : List Bytes} (h : ∀ e ∈ es, Elem e) : ¬ Absolute (joinPath es) := by
  match es, h with
  | [], _ => simp [joinPath, Absolute]
  | [e], h =>
    obtain ⟨_, _, h3⟩ := h e (by simp)
    intro ha
    unfold Absolute joinPath at ha
    exact h3 (List.mem_of_mem_head? ha)
  | e :: e' :: es, h =>
    obtain ⟨h1, _, h3⟩ := h e (by simp)
    intro ha
    unfold Absolute at ha
    rw [joinPath_cons] at ha
    cases e with
    | nil => exact h1 rfl
    | cons c t => simp at ha; exact h3 (by simp [ha])

theorem cleanPath_abs (p : Bytes) : Absolute (cleanPath p) ↔ Absolute p := by
  rw [cleanPath_eq]
  split
  · rename_i h; simp only [(isAbs_iff p).mp h, iff_true]; rfl
  · rename_i h
    have hn : ¬ Absolute p := fun ha => h ((isAbs_iff p).mpr ha)
    split
    · simp [Absolute] ; exact fun ha => hn ha
    · simp only [hn, iff_false]
      exact joinPath_head fun e he => kept_elem p e (List.mem_reverse.mp he)

theorem cleanPath_ne_nil (p : Bytes) : cleanPath p ≠ [] := by
  rw [cleanPath_eq]
  split
  · simp
  · split
    · simp
    · assumption

theorem walk_joinPath {es : List Bytes} (h : ∀ e ∈ es, Elem e) (P : Place) : (names (joinPath es)).foldl walk P = es.foldl walk P := by
  by_cases he : es = []
  · subst he; simp [joinPath, names, walk]
  · rw [names_joinPath es he fun e h' => (h e h').2.2]

theorem locate_clean (cwd : Place) (p : Bytes) : locate cwd (cleanPath p) = locate cwd p := by
  rw [← kept_walk p cwd]
  have hk : ∀ e ∈ (kept p).reverse, Elem e := fun e he => kept_elem p e (List.mem_reverse.mp he)
  by_cases ha : Absolute p
  · have h1 := (cleanPath_abs p).mpr ha
    unfold locate
    rw [if_pos h1, if_pos ha, cleanPath_eq, if_pos ((isAbs_iff p).mpr ha)]
    simp only [names, if_true, List.foldl_cons]
    rw [show walk [] [] = [] from rfl]
    exact walk_joinPath hk []
  · have h1 : ¬ Absolute (cleanPath p) := fun h => ha ((cleanPath_abs p).mp h)
    unfold locate
    rw [if_neg h1, if_neg ha, cleanPath_eq, if_neg (fun h => ha ((isAbs_iff p).mp h))]
    split
    · rename_i h
      rw [joinPath_eq_nil (fun e he => (hk e he).1) h]
      simp [names, walk]
    · exact walk_joinPath hk cwd

/-- at the root `Clean` leaves no `..` -/
theorem rooted_nodots : ∀ (es out : List Bytes), (∀ x ∈ out, x ≠ [0x2E, 0x2E]) → ∀ x ∈ es.foldl (cleanStep true) out, x ≠ [0x2E, 0x2E]
  | [], _, h => h
  | e :: es, out, h => by
    apply rooted_nodots es
    unfold cleanStep
    split
    · exact h
    · split
      · exact h
      · split
        · split
          · simp
          · rename_i o out'
            split
            · rename_i ho; exact absurd ho (h o (by simp))
            · intro x hx; exact h x (List.mem_cons_of_mem _ hx)
        · intro x hx
          rcases List.mem_cons.mp hx with rfl | hx
          · assumption
          · exact h x hx

theorem walk_push : ∀ (es : List Bytes) (P : Place), (∀ e ∈ es, Elem e ∧ e ≠ [0x2E, 0x2E]) → es.foldl walk P = es.reverse ++ P
  | [], _, _ => rfl
  | e :: es, P, h => by
    obtain ⟨⟨h1, h2, _⟩, h3⟩ := h e (by simp)
    rw [List.foldl_cons, walk_push es _ fun x hx => h x (List.mem_cons_of_mem _ hx)]
    unfold walk
    rw [if_neg (fun h' => h'.elim h1 h2), if_neg h3]
    simp

theorem cleanPath_canonical (p : Bytes) (ha : Absolute p) (cwd : Place) : cleanPath p = pathOf (locate cwd p) := by
  rw [← kept_walk p cwd, if_pos ha, cleanPath_eq, if_pos ((isAbs_iff p).mpr ha)]
  have hk : ∀ e ∈ kept p, Elem e ∧ e ≠ [0x2E, 0x2E] := fun e he => ⟨kept_elem p e he, by
    unfold kept at he
    rw [(isAbs_iff p).mpr ha] at he
    exact rooted_nodots _ [] (by simp) e he⟩
  rw [walk_push _ [] fun e he => hk e (List.mem_reverse.mp he)]
  simp only [List.reverse_reverse, List.append_nil]
  unfold pathOf
  by_cases h : kept p = []
  · rw [if_pos h, h]; rfl
  · rw [if_neg h, slash_joinPath _ (by simpa using h)]

theorem locate_append (cwd : Place) (a b : Bytes) (ha : a ≠ []) :
    locate cwd (a ++ 0x2F :: b) = (names b).foldl walk (locate cwd a) := by
  unfold locate
  rw [names_append, List.foldl_append]
  have : Absolute (a ++ 0x2F :: b) ↔ Absolute a := by
    cases a with
    | nil => exact absurd rfl ha
    | cons c t => simp [Absolute]
  simp only [this]

/-- everything up to the last slash -/
theorem dropWhile_base (a base : Bytes) (hb : 0x2F ∉ base) (ha : a = [] ∨ ∃ a', a = a' ++ [0x2F]) :
    ((a ++ base).reverse.dropWhile fun b => b != 0x2F).reverse = a := by
  rw [List.reverse_append, List.dropWhile_append_of_pos]
  · rcases ha with rfl | ⟨a', rfl⟩
    · rfl
    · simp
  · intro x hx
    rw [List.mem_reverse] at hx
    simp only [bne_iff_ne, ne_eq]
    rintro rfl
    exact hb hx

theorem pathDir_locate (cwd : Place) (a base : Bytes) (hb : 0x2F ∉ base) (ha : a = [] ∨ ∃ a', a = a' ++ [0x2F]) :
    locate cwd (pathDir (a ++ base)) = locate cwd a := by
  unfold pathDir
  rw [dropWhile_base a base hb ha, locate_clean]

theorem resolve_locate (cwd : Place) (file a base : Bytes) (hb : 0x2F ∉ base) (ha : a = [] ∨ ∃ a', a = a' ++ [0x2F]) :
    locate cwd (resolvePath file (a ++ base)) = locate (locate cwd a) file := by
  unfold resolvePath
  by_cases hf : Absolute file
  · rw [if_pos ((isAbs_iff file).mpr hf)]
    unfold locate
    simp only [if_pos hf]
  · rw [if_neg fun h => hf ((isAbs_iff file).mp h)]
    unfold pathJoin
    have hd : pathDir (a ++ base) ≠ [] := cleanPath_ne_nil _
    rw [if_pos hd, locate_clean, locate_append _ _ _ hd, pathDir_locate cwd a base hb ha]
    generalize locate cwd a = P
    unfold locate
    rw [if_neg hf]

theorem resolve_abs (file other : Bytes) : Absolute (resolvePath file other) ↔ Absolute file ∨ Absolute other := by
  unfold resolvePath
  by_cases hf : Absolute file
  · rw [if_pos ((isAbs_iff file).mpr hf)]; simp [hf]
  · rw [if_neg fun h => hf ((isAbs_iff file).mp h)]
    unfold pathJoin
    have hd : pathDir other ≠ [] := cleanPath_ne_nil _
    rw [if_pos hd, cleanPath_abs]
    have e : Absolute (pathDir other ++ 0x2F :: file) ↔ Absolute (pathDir other) := by
      cases h : pathDir other with
      | nil => exact absurd h hd
      | cons c t => simp [Absolute]
    rw [e]
    unfold pathDir
    rw [cleanPath_abs]
    simp only [hf, false_or]
    constructor
    · intro h
      have : (other.reverse.dropWhile fun b => b != 0x2F).reverse <+: other := by
        rw [← List.reverse_suffix]; simp only [List.reverse_reverse]; exact List.dropWhile_suffix _
      obtain ⟨r, hr⟩ := this
      unfold Absolute at h ⊢
      rw [← hr, List.head?_append, h]; rfl
    · intro h
      cases other with
      | nil => simp [Absolute] at h
      | cons c t =>
        simp [Absolute] at h
        subst h
        unfold Absolute
        rw [List.head?_reverse, List.reverse_cons]
        have : ∀ (l : Bytes), ((l ++ [0x2F]).dropWhile fun b => b != 0x2F).getLast? = some 0x2F := by
          intro l
          induction l with
          | nil => rfl
          | cons x l ih =>
            rw [List.cons_append, List.dropWhile_cons]
            split
            · exact ih
            · rw [← List.cons_append, List.getLast?_append]; rfl
        exact this _

theorem upToSlash_noslash : ∀ (p : Bytes), 0x2F ∉ p → upToSlash p = []
  | [], _ => rfl
  | c :: t, h => by unfold upToSlash; rw [if_neg h]

theorem upToSlash_append : ∀ (a base : Bytes), 0x2F ∉ base → (a = [] ∨ ∃ a', a = a' ++ [0x2F]) → upToSlash (a ++ base) = a
  | [], base, hb, _ => upToSlash_noslash base hb
  | c :: t, base, hb, ha => by
    have hm : (0x2F : UInt8) ∈ c :: t := by
      rcases ha with h | ⟨a', h⟩
      · exact nomatch h
      · rw [h]; simp
    rw [List.cons_append]
    unfold upToSlash
    rw [if_pos (by rw [← List.cons_append]; exact List.mem_append_left _ hm)]
    congr 1
    cases t with
    | nil => exact upToSlash_noslash base hb
    | cons x t =>
      refine upToSlash_append (x :: t) base hb (.inr ?_)
      rcases ha with h | ⟨a', h⟩
      · exact nomatch h
      · cases a' with
        | nil => simp at h
        | cons y a' => exact ⟨a', by injection h⟩

theorem exists_base (other : Bytes) : ∃ a base, other = a ++ base ∧ 0x2F ∉ base ∧ (a = [] ∨ ∃ a', a = a' ++ [0x2F]) := by
  induction other with
  | nil => exact ⟨[], [], rfl, by simp, .inl rfl⟩
  | cons c t ih =>
    obtain ⟨a, base, rfl, hb, ha⟩ := ih
    rcases ha with rfl | ⟨a', rfl⟩
    · by_cases hc : c = 0x2F
      · exact ⟨[c], base, rfl, hb, .inr ⟨[], by rw [hc]; rfl⟩⟩
      · refine ⟨[], c :: base, rfl, ?_, .inl rfl⟩
        intro hm
        rcases List.mem_cons.mp hm with h | h
        · exact hc h.symm
        · exact hb h
    · exact ⟨c :: (a' ++ [0x2F]), base, rfl, hb, .inr ⟨c :: a', rfl⟩⟩

theorem resolve_beside (cwd : Place) (path file : Bytes) : locate cwd (resolvePath path file) = beside cwd file path := by
  obtain ⟨a, base, rfl, hb, ha⟩ := exists_base file
  unfold beside
  rw [resolve_locate cwd path a base hb ha, upToSlash_append a base hb ha]

theorem locate_rel {P : Place} {x : Bytes} (h : ¬ Absolute x) : locate P x = (names x).foldl walk P := by
  unfold locate; rw [if_neg h]

theorem join_locate (cwd : Place) (dir x : Bytes) (h : ¬ Absolute x) (hx : x ≠ []) : locate cwd (pathJoin dir x) = locate (locate cwd dir) x := by
  unfold pathJoin
  by_cases hd : dir = []
  · subst hd
    rw [if_neg (by simp), if_pos hx, locate_clean]
    rfl
  · rw [if_pos hd, locate_clean, locate_append _ _ _ hd, locate_rel h]

/-- a plain name leads one step down -/
theorem locate_name {P : Place} {x : Bytes} (h : 0x2F ∉ x) (h1 : x ≠ []) (h2 : x ≠ [0x2E]) (h3 : x ≠ [0x2E, 0x2E]) : locate P x = x :: P := by
  have ha : ¬ Absolute x := by
    intro ha; exact h (List.mem_of_mem_head? ha)
  rw [locate_rel ha, names_noslash x h]
  simp [walk, h1, h2, h3]

/-- the last name of a path -/
theorem locate_base (cwd : Place) (a base : Bytes) (hb : 0x2F ∉ base) (ha : a = [] ∨ ∃ a', a = a' ++ [0x2F]) :
    locate cwd (a ++ base) = walk (locate cwd a) base ∧ (names (a ++ base)).getLast? = some base := by
  rcases ha with rfl | ⟨a', rfl⟩
  · rw [List.nil_append, names_noslash base hb]
    refine ⟨?_, rfl⟩
    unfold locate
    rw [names_noslash base hb]
    by_cases h : Absolute base
    · exact absurd (List.mem_of_mem_head? h) hb
    · rw [if_neg h]; simp [Absolute, names, walk]
  · rw [List.append_assoc, List.singleton_append, names_append, names_noslash base hb]
    refine ⟨?_, by simp⟩
    by_cases h : a' = []
    · subst h
      unfold locate
      simp [names, Absolute, names_noslash base hb, walk]
    · rw [locate_append cwd a' base h, locate_append cwd a' [] h, names_noslash base hb]
      simp [names, walk]

/-- a path that ends in a plain name, cleaned, still does -/
theorem dir_of_join (cwd : Place) (dir x : Bytes) (h : 0x2F ∉ x) (h1 : x ≠ []) (h2 : x ≠ [0x2E]) (h3 : x ≠ [0x2E, 0x2E]) :
    locate cwd (upToSlash (pathJoin dir x)) = locate cwd dir := by
  have ha : ¬ Absolute x := fun ha => h (List.mem_of_mem_head? ha)
  have hplace : locate cwd (pathJoin dir x) = x :: locate cwd dir := by
    rw [join_locate cwd dir x ha h1, locate_name h h1 h2 h3]
  have key : ∀ (q : Bytes) (l : List Bytes), names q = l ++ [x] → (names (cleanPath q)).getLast? = some x := by
    intro q l hq
    have hk : kept q = x :: (l.foldl (cleanStep (isAbs q)) []) := by
      unfold kept
      rw [hq, List.foldl_append, List.foldl_cons, List.foldl_nil]
      generalize List.foldl (cleanStep (isAbs q)) [] l = out
      unfold cleanStep
      rw [if_neg h1, if_neg h2, if_neg h3]
    have hn : names (joinPath (kept q).reverse) = (kept q).reverse :=
      names_joinPath _ (by rw [hk]; simp) fun e he => (kept_elem q e (List.mem_reverse.mp he)).2.2
    have hl : (kept q).reverse.getLast? = some x := by rw [hk]; simp
    rw [cleanPath_eq]
    split
    · simp only [names, if_true]
      rw [List.getLast?_cons, hn, hl]
      rfl
    · split
      · rename_i he
        have := joinPath_eq_nil (fun e he => (kept_elem q e (List.mem_reverse.mp he)).1) he
        rw [hk] at this
        simp at this
      · rw [hn, hl]
  have hlast : (names (pathJoin dir x)).getLast? = some x := by
    unfold pathJoin
    split
    · exact key _ (names dir) (by rw [names_append, names_noslash x h])
    · exact key x [] (by rw [names_noslash x h]; rfl)
  obtain ⟨a, base, hp, hb, ha'⟩ := exists_base (pathJoin dir x)
  rw [hp] at hplace hlast ⊢
  obtain ⟨e1, e2⟩ := locate_base cwd a base hb ha'
  rw [e2] at hlast
  cases hlast
  rw [e1] at hplace
  unfold walk at hplace
  rw [if_neg (fun h' => h'.elim h1 h2), if_neg h3] at hplace
  rw [upToSlash_append a x h ha']
  injection hplace

end Coniks
