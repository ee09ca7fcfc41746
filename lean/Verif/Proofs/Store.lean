import Verif.Spec.Store
import Verif.Proofs.KV
namespace Coniks
open Spec

theorem bytesLt_iff (a b : Bytes) : bytesLt a b = true ↔ LexLt a b := by
  induction a generalizing b with
  | nil =>
    rw [lexLt_nil_left]
    cases b <;> simp [bytesLt]
  | cons x a ih =>
    cases b with
    | nil => simp [bytesLt, lexLt_nil_right]
    | cons y b =>
      rw [lexLt_cons, bytesLt]
      by_cases h : x < y
      · simp [h]
      · by_cases e : x = y
        · simp [e, ih]
        · simp [h, e]

theorem lexLt_irrefl (a : Bytes) : ¬ LexLt a a := by
  induction a with
  | nil => exact lexLt_nil_right _
  | cons x a ih => rw [lexLt_cons]; simp [ih]

theorem lexLt_trans {a b c : Bytes} (h : LexLt a b) (h' : LexLt b c) : LexLt a c := by
  induction a generalizing b c with
  | nil =>
    cases c with
    | nil => exact absurd h' (lexLt_nil_right _)
    | cons => rw [lexLt_nil_left]; simp
  | cons x a ih =>
    cases b with
    | nil => exact absurd h (lexLt_nil_right _)
    | cons y b =>
      cases c with
      | nil => exact absurd h' (lexLt_nil_right _)
      | cons z c =>
        rw [lexLt_cons] at h h' ⊢
        rcases h with h | ⟨rfl, h⟩
        · rcases h' with h' | ⟨rfl, _⟩
          · left; exact UInt8.lt_trans h h'
          · left; exact h
        · rcases h' with h' | ⟨rfl, h'⟩
          · left; exact h'
          · right; exact ⟨rfl, ih h h'⟩

theorem lexLt_total (a b : Bytes) : LexLt a b ∨ a = b ∨ LexLt b a := by
  induction a generalizing b with
  | nil => cases b <;> simp [lexLt_nil_left]
  | cons x a ih =>
    cases b with
    | nil => right; right; rw [lexLt_nil_left]; simp
    | cons y b =>
      rw [lexLt_cons, lexLt_cons, List.cons.injEq]
      by_cases e : x = y
      · rcases ih b with h | h | h
        · left; right; exact ⟨e, h⟩
        · right; left; exact ⟨e, h⟩
        · right; right; right; exact ⟨e.symm, h⟩
      · rcases UInt8.lt_or_lt_of_ne e with h | h
        · left; left; exact h
        · right; right; left; exact h

/-- in key order, no key twice -/
def Ordered (t : List (Bytes × Bytes)) : Prop := t.Pairwise fun a b => LexLt a.1 b.1

theorem tablePut_mem {k v : Bytes} : ∀ {t : List (Bytes × Bytes)}, Ordered t → ∀ e,
    (e ∈ tablePut k v t ↔ e = (k, v) ∨ (e ∈ t ∧ e.1 ≠ k)) := by
  intro t
  induction t with
  | nil => intro _ e; simp [tablePut]
  | cons x t ih =>
    obtain ⟨k', v'⟩ := x
    intro ho e
    have ho' := List.pairwise_cons.mp ho
    rw [tablePut]
    by_cases h1 : bytesLt k k' = true
    · rw [if_pos h1]
      have hl := (bytesLt_iff _ _).mp h1
      have hne : ∀ e ∈ (k', v') :: t, e.1 ≠ k := by
        intro e he heq
        rcases List.mem_cons.mp he with rfl | he
        · exact lexLt_irrefl _ (heq ▸ hl)
        · have := lexLt_trans hl (ho'.1 e he)
          rw [heq] at this
          exact lexLt_irrefl _ this
      rw [List.mem_cons]
      constructor
      · rintro (h | h)
        · exact Or.inl h
        · exact Or.inr ⟨h, hne e h⟩
      · rintro (h | h)
        · exact Or.inl h
        · exact Or.inr h.1
    · rw [if_neg h1]
      by_cases h2 : k = k'
      · rw [if_pos h2]
        subst h2
        have hne : ∀ e ∈ t, e.1 ≠ k := by
          intro e he heq
          have := ho'.1 e he
          simp only at this
          rw [heq] at this
          exact lexLt_irrefl _ this
        simp only [List.mem_cons]
        constructor
        · rintro (h | h)
          · exact Or.inl h
          · exact Or.inr ⟨Or.inr h, hne e h⟩
        · rintro (h | ⟨h | h, hk⟩)
          · exact Or.inl h
          · rw [h] at hk; exact absurd rfl hk
          · exact Or.inr h
      · rw [if_neg h2]
        simp only [List.mem_cons, ih ho'.2 e]
        constructor
        · rintro (h | h | h)
          · exact Or.inr ⟨Or.inl h, by rw [h]; exact fun e => h2 e.symm⟩
          · exact Or.inl h
          · exact Or.inr ⟨Or.inr h.1, h.2⟩
        · rintro (h | ⟨h | h, hk⟩)
          · exact Or.inr (Or.inl h)
          · exact Or.inl h
          · exact Or.inr (Or.inr ⟨h, hk⟩)

theorem tablePut_ordered {k v : Bytes} : ∀ {t : List (Bytes × Bytes)}, Ordered t → Ordered (tablePut k v t) := by
  intro t
  induction t with
  | nil => intro _; simp [tablePut, Ordered]
  | cons x t ih =>
    obtain ⟨k', v'⟩ := x
    intro ho
    have ho' := List.pairwise_cons.mp ho
    rw [tablePut]
    by_cases h1 : bytesLt k k' = true
    · rw [if_pos h1]
      have hl := (bytesLt_iff _ _).mp h1
      refine List.pairwise_cons.mpr ⟨?_, ho⟩
      intro e he
      rcases List.mem_cons.mp he with rfl | he
      · exact hl
      · exact lexLt_trans hl (ho'.1 e he)
    · rw [if_neg h1]
      by_cases h2 : k = k'
      · rw [if_pos h2]
        subst h2
        exact List.pairwise_cons.mpr ⟨fun e he => ho'.1 e he, ho'.2⟩
      · rw [if_neg h2]
        refine List.pairwise_cons.mpr ⟨?_, ih ho'.2⟩
        intro e he
        rcases (tablePut_mem ho'.2 e).mp he with rfl | ⟨he, _⟩
        · rcases lexLt_total k' k with h | h | h
          · exact h
          · exact absurd h.symm h2
          · exact absurd ((bytesLt_iff _ _).mpr h) h1
        · exact ho'.1 e he

theorem tableDel_ordered {k : Bytes} {t : List (Bytes × Bytes)} (h : Ordered t) : Ordered (tableDel k t) :=
  List.Pairwise.filter _ h

theorem tableStep_ordered {o : StoreOp} {t : List (Bytes × Bytes)} (h : Ordered t) : Ordered (tableStep t o) := by
  cases o with
  | put k v => exact tablePut_ordered h
  | del k => exact tableDel_ordered h

theorem valueOf_snoc (k : Bytes) (ops : List StoreOp) (o : StoreOp) :
    valueOf k (ops ++ [o]) = match saysOf k o with | some x => x | none => valueOf k ops := by
  unfold valueOf
  rw [List.filterMap_append]
  cases h : saysOf k o with
  | none => simp [List.filterMap_cons, h]
  | some x => simp [List.filterMap_cons, h]

theorem table_spec (ops : List StoreOp) : Ordered (ops.foldl tableStep []) ∧
    ∀ k v, (k, v) ∈ ops.foldl tableStep [] ↔ valueOf k ops = some v := by
  obtain ⟨r, rfl⟩ : ∃ r : List StoreOp, ops = r.reverse := ⟨ops.reverse, by simp⟩
  induction r with
  | nil => exact ⟨List.Pairwise.nil, by simp [valueOf]⟩
  | cons o r ih =>
    obtain ⟨ho, hm⟩ := ih
    rw [List.reverse_cons]
    generalize r.reverse = ops at ho hm ⊢
    rw [List.foldl_append, List.foldl_cons, List.foldl_nil]
    refine ⟨tableStep_ordered ho, fun k v => ?_⟩
    rw [valueOf_snoc]
    cases o with
    | put k' v' =>
      simp only [tableStep, saysOf, tablePut_mem ho, Prod.mk.injEq, hm, ne_eq]
      by_cases e : k' = k
      · subst e; simp [eq_comm]
      · have : k ≠ k' := fun h => e h.symm
        simp [e, this]
    | del k' =>
      simp only [tableStep, tableDel, List.mem_filter, hm, saysOf, decide_eq_true_eq, ne_eq]
      by_cases e : k' = k
      · subst e; simp
      · have : k ≠ k' := fun h => e h.symm
        simp [e, this]

theorem get_of_table (db : LevelDB) (k : Bytes) (h : db.closed = false) :
    db.get k = match valueOf k db.log.flatten with | some v => .ok v | none => .error .notFound := by
  obtain ⟨ho, hm⟩ := table_spec db.log.flatten
  unfold LevelDB.get LevelDB.table
  rw [h]
  simp only [Bool.false_eq_true, if_false]
  cases hf : (List.foldl tableStep [] db.log.flatten).find? (fun e => e.1 == k) with
  | none =>
    have hn : valueOf k db.log.flatten = none := by
      cases hv : valueOf k db.log.flatten with
      | none => rfl
      | some v =>
        have := (hm k v).mpr hv
        have := List.find?_eq_none.mp hf _ this
        simp at this
    rw [hn]
  | some e =>
    have hp := List.find?_some hf
    have he := List.mem_of_find?_eq_some hf
    simp only [beq_iff_eq] at hp
    have : valueOf k db.log.flatten = some e.2 := (hm k e.2).mp (by rw [← hp]; exact he)
    rw [this]

/-- everything written is on the disk -/
def AllSynced (db : LevelDB) : Prop := db.synced = db.log.length

theorem write_effect {db : LevelDB} (b : List StoreOp) (hs : AllSynced db) :
    AllSynced (db.write b true).1 ∧ (db.write b true).1.closed = db.closed ∧
    (db.write b true).1.log.flatten = db.log.flatten ++ (if db.closed then [] else b) := by
  unfold LevelDB.write
  cases hc : db.closed with
  | true => exact ⟨hs, hc, by simp⟩
  | false => exact ⟨by simp [AllSynced], rfl, by simp⟩

theorem recover_all {db db' : LevelDB} {n : Nat} (hs : AllSynced db) (h : db.recover n = some db') :
    AllSynced db' ∧ db'.closed = false ∧ db'.log = db.log := by
  unfold LevelDB.recover at h
  split at h
  · next hn =>
    rw [hs] at hn
    have e : n = db.log.length := by omega
    simp only [Option.some.injEq] at h
    subst h
    subst e
    refine ⟨?_, rfl, ?_⟩ <;> simp [AllSynced]
  · cases h

/-- one event: what it may have done, what is on the disk -/
theorem storeStep_spec {db db' : LevelDB} {e : StoreEv} (hs : AllSynced db) (h : storeStep db e = some db') :
    AllSynced db' ∧ db'.closed = !nowOpen (!db.closed) e ∧
    ∃ a ∈ (if (!db.closed) then effects e else [[]]), db'.log.flatten = db.log.flatten ++ a := by
  cases e with
  | get k =>
    simp only [storeStep, Option.some.injEq] at h
    subst h
    refine ⟨hs, by simp [nowOpen], ?_⟩
    cases db.closed <;> exact ⟨[], by simp [effects], by simp⟩
  | put k v =>
    simp only [storeStep, Option.some.injEq, storePut] at h
    subst h
    obtain ⟨h1, h2, h3⟩ := write_effect [.put k v] hs
    refine ⟨h1, by rw [h2]; simp [nowOpen], _, ?_, h3⟩
    cases db.closed <;> simp [effects]
  | delete k =>
    simp only [storeStep, Option.some.injEq, storeDelete] at h
    subst h
    obtain ⟨h1, h2, h3⟩ := write_effect [.del k] hs
    refine ⟨h1, by rw [h2]; simp [nowOpen], _, ?_, h3⟩
    cases db.closed <;> simp [effects]
  | write b =>
    cases b with
    | none =>
      simp only [storeStep, Option.some.injEq, storeWrite] at h
      subst h
      refine ⟨hs, by simp [nowOpen], ?_⟩
      cases db.closed <;> exact ⟨[], by simp [effects], by simp⟩
    | some b =>
      simp only [storeStep, Option.some.injEq, storeWrite] at h
      subst h
      obtain ⟨h1, h2, h3⟩ := write_effect b hs
      refine ⟨h1, by rw [h2]; simp [nowOpen], _, ?_, h3⟩
      cases db.closed <;> simp [effects]
  | close =>
    simp only [storeStep, Option.some.injEq, storeClose] at h
    subst h
    cases hc : db.closed with
    | true => exact ⟨hs, by simp [nowOpen, hc], [], by simp, by simp⟩
    | false => exact ⟨hs, by simp [nowOpen], [], by simp [effects], by simp⟩
  | reopen =>
    simp only [storeStep] at h
    cases hc : db.closed with
    | false => simp [hc] at h
    | true =>
      rw [hc, if_pos rfl] at h
      obtain ⟨h1, h2, h3⟩ := recover_all hs h
      exact ⟨h1, by simp [nowOpen, h2], [], by simp, by simp [h3]⟩
  | crash d n =>
    cases d with
    | none =>
      simp only [storeStep] at h
      obtain ⟨h1, h2, h3⟩ := recover_all hs h
      refine ⟨h1, by simp [nowOpen, h2], [], ?_, by simp [h3]⟩
      cases db.closed <;> simp [effects]
    | some b =>
      simp only [storeStep] at h
      cases hc : db.closed with
      | true => simp [hc] at h
      | false =>
        rw [hc] at h
        simp only [Bool.false_eq_true, if_false, LevelDB.recover] at h
        split at h
        · next hn =>
          simp only [Option.some.injEq] at h
          rw [hs] at hn
          simp only [List.length_append, List.length_singleton] at hn
          have hcase : n = db.log.length ∨ n = db.log.length + 1 := by omega
          subst h
          rcases hcase with rfl | rfl
          · exact ⟨by simp [AllSynced], by simp [nowOpen], [], by simp [effects], by simp⟩
          · exact ⟨by simp [AllSynced], by simp [nowOpen], b, by simp [effects],
              by simp [List.take_of_length_le]⟩
        · cases h

theorem storeAfter_spec : ∀ (es : List StoreEv) (db db' : LevelDB), AllSynced db → storeAfter db es = some db' →
    AllSynced db' ∧ ∃ a ∈ outcomes (!db.closed) es, db'.log.flatten = db.log.flatten ++ a := by
  intro es
  induction es with
  | nil =>
    intro db db' hs h
    simp only [storeAfter, Option.some.injEq] at h
    subst h
    exact ⟨hs, [], by simp [outcomes], by simp⟩
  | cons e es ih =>
    intro db db' hs h
    rw [storeAfter] at h
    obtain ⟨d, hd, h⟩ := Option.bind_eq_some_iff.mp h
    obtain ⟨s1, s2, a, ha, s3⟩ := storeStep_spec hs hd
    obtain ⟨t1, b, hb, t2⟩ := ih d db' s1 h
    refine ⟨t1, a ++ b, ?_, by rw [t2, s3, List.append_assoc]⟩
    rw [outcomes, List.mem_flatMap]
    refine ⟨a, ha, List.mem_map.mpr ⟨b, ?_, rfl⟩⟩
    rw [s2] at hb
    simpa using hb

theorem storeAfter_append : ∀ (es₁ es₂ : List StoreEv) (db : LevelDB),
    storeAfter db (es₁ ++ es₂) = (storeAfter db es₁).bind fun d => storeAfter d es₂ := by
  intro es₁
  induction es₁ with
  | nil => intro es₂ db; rfl
  | cons e es ih =>
    intro es₂ db
    rw [List.cons_append, storeAfter, storeAfter]
    cases storeStep db e with
    | none => rfl
    | some d => exact ih es₂ d

end Coniks
