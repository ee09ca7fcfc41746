import Verif.Proofs.Json.Grammar
/-
The reader accepts exactly the texts of the grammar: whole values.
-/
namespace Coniks.Json
open Spec

theorem inter_one (x : Bytes) : List.intercalate [0x2C] [x] = x := by simp [List.intercalate]

theorem inter_cons (x : Bytes) (xs : List Bytes) (h : xs ≠ []) :
    List.intercalate [0x2C] (x :: xs) = x ++ 0x2C :: List.intercalate [0x2C] xs := by
  match xs, h with
  | y :: ys, _ => simp [List.intercalate, List.intersperse]

theorem pLit_split {kw : Bytes} {v w : JVal} {s t : Bytes} (h : pLit kw v s = some (w, t)) : s = kw ++ t ∧ w = v := by
  unfold pLit at h
  split at h
  · rename_i e
    simp only [Option.some.injEq, Prod.mk.injEq] at h
    obtain ⟨rfl, rfl⟩ := h
    refine ⟨?_, rfl⟩
    conv => rhs; lhs; rw [← e]
    rw [List.take_append_drop]
  · exact nomatch h

/-- the elements of a text that `pElems` reads -/
def ElemsOf (s : Bytes) (vs : List JVal) (r : Bytes) : Prop :=
  ∃ es : List ElemText, es ≠ [] ∧ (∀ e ∈ es, Ws e.before ∧ Ws e.after) ∧ (∀ e ∈ es, ValText e.text e.val) ∧
    s = List.intercalate [0x2C] (es.map ElemText.all) ++ 0x5D :: r ∧ vs = es.map ElemText.val

/-- the members of a text that `pMembers` reads -/
def MembersOf (s : Bytes) (vs : List (Bytes × JVal)) (r : Bytes) : Prop :=
  ∃ ms : List MemberText, ms ≠ [] ∧ (∀ m ∈ ms, Ws m.before ∧ StrText m.nameText m.name ∧ Ws m.after ∧ Ws m.value.before ∧ Ws m.value.after) ∧
    (∀ m ∈ ms, ValText m.value.text m.value.val) ∧
    s = List.intercalate [0x2C] (ms.map MemberText.all) ++ 0x7D :: r ∧ vs = ms.map fun m => (m.name, m.value.val)

theorem p_sound : ∀ (f : Nat),
    (∀ (s : Bytes) (v : JVal) (r : Bytes), pValue f s = some (v, r) → ∃ w t, Ws w ∧ s = w ++ t ++ r ∧ ValText t v) ∧
    (∀ (s : Bytes) (vs : List JVal) (r : Bytes), pElems f s = some (vs, r) → ElemsOf s vs r) ∧
    (∀ (s : Bytes) (vs : List (Bytes × JVal)) (r : Bytes), pMembers f s = some (vs, r) → MembersOf s vs r)
  | 0 => by simp [pValue, pElems, pMembers]
  | f + 1 => by
    obtain ⟨ih1, ih2, ih3⟩ := p_sound f
    refine ⟨?_, ?_, ?_⟩
    · intro s v r h
      rw [pValue] at h
      match hs : skipWs s with
      | [] => rw [hs] at h; exact nomatch h
      | c :: t =>
        rw [hs] at h
        obtain ⟨w, hw, rfl⟩ := skipWs_cons_split hs
        dsimp only at h
        split at h
        · rename_i hc
          subst hc
          split at h
          · rename_i t' ht
            simp only [Option.some.injEq, Prod.mk.injEq] at h
            obtain ⟨rfl, rfl⟩ := h
            obtain ⟨w', hw', rfl⟩ := skipWs_cons_split ht
            exact ⟨w, _, hw, by simp, .obj0 hw'⟩
          · obtain ⟨⟨ms, r'⟩, h1, h2⟩ := Option.map_eq_some_iff.mp h
            simp only [Prod.mk.injEq] at h2
            obtain ⟨rfl, rfl⟩ := h2
            obtain ⟨es, e1, e2, e3, rfl, rfl⟩ := ih3 _ _ _ h1
            exact ⟨w, _, hw, by simp, .obj e1 e2 e3⟩
        split at h
        · rename_i hc
          subst hc
          split at h
          · rename_i t' ht
            simp only [Option.some.injEq, Prod.mk.injEq] at h
            obtain ⟨rfl, rfl⟩ := h
            obtain ⟨w', hw', rfl⟩ := skipWs_cons_split ht
            exact ⟨w, _, hw, by simp, .arr0 hw'⟩
          · obtain ⟨⟨ms, r'⟩, h1, h2⟩ := Option.map_eq_some_iff.mp h
            simp only [Prod.mk.injEq] at h2
            obtain ⟨rfl, rfl⟩ := h2
            obtain ⟨es, e1, e2, e3, rfl, rfl⟩ := ih2 _ _ _ h1
            exact ⟨w, _, hw, by simp, .arr e1 e2 e3⟩
        split at h
        · rename_i hc
          subst hc
          obtain ⟨⟨x, r'⟩, h1, h2⟩ := Option.map_eq_some_iff.mp h
          simp only [Prod.mk.injEq] at h2
          obtain ⟨rfl, rfl⟩ := h2
          obtain ⟨b, rfl, hb⟩ := pStr_sound _ _ _ _ h1
          exact ⟨w, _, hw, by simp, .str hb⟩
        split at h
        · obtain ⟨e, rfl⟩ := pLit_split h
          exact ⟨w, _, hw, by rw [e, List.append_assoc], .true⟩
        split at h
        · obtain ⟨e, rfl⟩ := pLit_split h
          exact ⟨w, _, hw, by rw [e, List.append_assoc], .false⟩
        split at h
        · obtain ⟨e, rfl⟩ := pLit_split h
          exact ⟨w, _, hw, by rw [e, List.append_assoc], .null⟩
        · obtain ⟨⟨x, r'⟩, h1, h2⟩ := Option.map_eq_some_iff.mp h
          simp only [Prod.mk.injEq] at h2
          obtain ⟨rfl, rfl⟩ := h2
          obtain ⟨e, hn⟩ := pNum_split h1
          exact ⟨w, _, hw, by rw [e, List.append_assoc], .num hn⟩
    · intro s vs r h
      rw [pElems] at h
      split at h
      · exact nomatch h
      · rename_i v t h1
        obtain ⟨w, u, hw, rfl, hu⟩ := ih1 _ _ _ h1
        split at h
        · rename_i t' ht
          obtain ⟨w', hw', rfl⟩ := skipWs_cons_split ht
          obtain ⟨⟨vs', r'⟩, h2, h3⟩ := Option.map_eq_some_iff.mp h
          simp only [Prod.mk.injEq] at h3
          obtain ⟨rfl, rfl⟩ := h3
          obtain ⟨es, e1, e2, e3, rfl, rfl⟩ := ih2 _ _ _ h2
          refine ⟨⟨w, u, w', v⟩ :: es, by simp, ?_, ?_, ?_, rfl⟩
          · intro e he
            rcases List.mem_cons.mp he with rfl | he
            · exact ⟨hw, hw'⟩
            · exact e2 e he
          · intro e he
            rcases List.mem_cons.mp he with rfl | he
            · exact hu
            · exact e3 e he
          · rw [List.map_cons, inter_cons _ _ (by simpa using e1)]
            simp [ElemText.all]
        · rename_i t' ht
          obtain ⟨w', hw', rfl⟩ := skipWs_cons_split ht
          simp only [Option.some.injEq, Prod.mk.injEq] at h
          obtain ⟨rfl, rfl⟩ := h
          refine ⟨[⟨w, u, w', v⟩], by simp, ?_, ?_, ?_, rfl⟩
          · intro e he
            rw [List.mem_singleton.mp he]
            exact ⟨hw, hw'⟩
          · intro e he
            rw [List.mem_singleton.mp he]
            exact hu
          · simp [inter_one, ElemText.all]
        · exact nomatch h
    · intro s vs r h
      rw [pMembers] at h
      split at h
      · rename_i t ht
        obtain ⟨w, hw, rfl⟩ := skipWs_cons_split ht
        split at h
        · exact nomatch h
        · rename_i k t1 hk
          obtain ⟨kt, rfl, hkt⟩ := pStr_sound _ _ _ _ hk
          split at h
          · rename_i t2 ht2
            obtain ⟨w2, hw2, rfl⟩ := skipWs_cons_split ht2
            split at h
            · exact nomatch h
            · rename_i v t3 hv
              obtain ⟨w3, u, hw3, rfl, hu⟩ := ih1 _ _ _ hv
              split at h
              · rename_i t' ht'
                obtain ⟨w', hw', rfl⟩ := skipWs_cons_split ht'
                obtain ⟨⟨vs', r'⟩, h2, h3⟩ := Option.map_eq_some_iff.mp h
                simp only [Prod.mk.injEq] at h3
                obtain ⟨rfl, rfl⟩ := h3
                obtain ⟨es, e1, e2, e3, rfl, rfl⟩ := ih3 _ _ _ h2
                refine ⟨⟨w, kt, k, w2, ⟨w3, u, w', v⟩⟩ :: es, by simp, ?_, ?_, ?_, rfl⟩
                · intro e he
                  rcases List.mem_cons.mp he with rfl | he
                  · exact ⟨hw, hkt, hw2, hw3, hw'⟩
                  · exact e2 e he
                · intro e he
                  rcases List.mem_cons.mp he with rfl | he
                  · exact hu
                  · exact e3 e he
                · rw [List.map_cons, inter_cons _ _ (by simpa using e1)]
                  simp [MemberText.all, ElemText.all]
              · rename_i t' ht'
                obtain ⟨w', hw', rfl⟩ := skipWs_cons_split ht'
                simp only [Option.some.injEq, Prod.mk.injEq] at h
                obtain ⟨rfl, rfl⟩ := h
                refine ⟨[⟨w, kt, k, w2, ⟨w3, u, w', v⟩⟩], by simp, ?_, ?_, ?_, rfl⟩
                · intro e he
                  rw [List.mem_singleton.mp he]
                  exact ⟨hw, hkt, hw2, hw3, hw'⟩
                · intro e he
                  rw [List.mem_singleton.mp he]
                  exact hu
                · simp [inter_one, MemberText.all, ElemText.all]
              · exact nomatch h
          · exact nomatch h
      · exact nomatch h

/-- the first byte of a value -/
theorem valText_head {t : Bytes} {v : JVal} (h : ValText t v) : ∃ c u, t = c :: u ∧ isWs c = false ∧ c ≠ 0x5D ∧ c ≠ 0x7D := by
  cases h with
  | num hn =>
    obtain ⟨c, u, rfl, hc⟩ := number_first hn
    refine ⟨c, u, rfl, ?_⟩
    rcases hc with rfl | hc
    · decide
    · have := (isDigit_iff c).mp hc
      refine ⟨?_, ?_, ?_⟩
      · rw [Bool.eq_false_iff, ne_eq, isWs_iff]
        intro hm
        simp only [List.mem_cons, List.not_mem_nil, or_false] at hm
        rcases hm with rfl | rfl | rfl | rfl <;> simp at this
      · rintro rfl; simp at this
      · rintro rfl; simp at this
  | null | true | false | str _ | arr0 _ | arr _ _ _ | obj0 _ | obj _ _ _ => exact ⟨_, _, rfl, by decide, by decide, by decide⟩

theorem ws_stops {w r : Bytes} (hw : Ws w) (hr : Stops r) : Stops (w ++ r) := by
  match w, hw with
  | [], _ => exact hr
  | c :: w, hw =>
    intro d t e
    simp only [List.cons_append, List.cons.injEq] at e
    have := hw c (by simp)
    rw [e.1] at this
    simp only [List.mem_cons, List.not_mem_nil, or_false] at this
    rcases this with rfl | rfl | rfl | rfl <;> decide

theorem stops_cons (c : UInt8) (t : Bytes) (h : isDigit c = false ∧ c ≠ 0x2E ∧ c ≠ 0x65 ∧ c ≠ 0x45) : Stops (c :: t) := by
  intro d u e
  rw [← (List.cons.inj e).1]; exact h

/-- what `pValue` does on one text -/
def Reads (t : Bytes) (v : JVal) : Prop :=
  ∀ (w r : Bytes) (f : Nat), Ws w → Stops r → 2 * (w ++ t ++ r).length + 1 ≤ f → pValue f (w ++ t ++ r) = some (v, r)

theorem pElems_complete (es : List ElemText) (hne : es ≠ []) (hw : ∀ e ∈ es, Ws e.before ∧ Ws e.after) (ih : ∀ e ∈ es, Reads e.text e.val) :
    ∀ (r : Bytes) (f : Nat), 2 * (List.intercalate [0x2C] (es.map ElemText.all) ++ 0x5D :: r).length + 2 ≤ f →
      pElems f (List.intercalate [0x2C] (es.map ElemText.all) ++ 0x5D :: r) = some (es.map ElemText.val, r) := by
  induction es with
  | nil => exact absurd rfl hne
  | cons e es ih2 =>
    intro r f hf
    obtain ⟨w1, w2⟩ := hw e (by simp)
    have rd := ih e (by simp)
    match f with
    | 0 => omega
    | f + 1 =>
      rw [pElems]
      by_cases hes : es = []
      · subst hes
        simp only [List.map_cons, List.map_nil, inter_one, ElemText.all, List.append_assoc] at hf ⊢
        have := rd e.before (e.after ++ 0x5D :: r) f w1 (ws_stops w2 (stops_cons _ _ (by decide))) (by simp only [List.append_assoc]; omega)
        simp only [List.append_assoc] at this
        rw [this]
        dsimp only
        rw [skipWs_ws _ _ w2, skipWs_cons _ _ (by decide)]
        rfl
      · rw [List.map_cons, inter_cons _ _ (by simpa using hes)] at hf ⊢
        have h2 := ih2 hes (fun x hx => hw x (List.mem_cons_of_mem _ hx)) (fun x hx => ih x (List.mem_cons_of_mem _ hx)) r f
          (by simp only [List.length_append, List.length_cons] at hf ⊢; omega)
        generalize List.intercalate [0x2C] (es.map ElemText.all) = rest at hf h2 ⊢
        simp only [ElemText.all, List.append_assoc, List.cons_append] at hf ⊢
        have := rd e.before (e.after ++ 0x2C :: (rest ++ 0x5D :: r)) f w1 (ws_stops w2 (stops_cons _ _ (by decide)))
          (by simp only [List.length_append, List.length_cons] at hf ⊢; omega)
        simp only [List.append_assoc] at this
        rw [this]
        dsimp only
        rw [skipWs_ws _ _ w2, skipWs_cons _ _ (by decide)]
        simp only [h2, Option.map_some, List.map_cons]

theorem pMembers_complete (es : List MemberText) (hne : es ≠ [])
    (hw : ∀ m ∈ es, Ws m.before ∧ StrText m.nameText m.name ∧ Ws m.after ∧ Ws m.value.before ∧ Ws m.value.after)
    (ih : ∀ m ∈ es, Reads m.value.text m.value.val) :
    ∀ (r : Bytes) (f : Nat), 2 * (List.intercalate [0x2C] (es.map MemberText.all) ++ 0x7D :: r).length + 2 ≤ f →
      pMembers f (List.intercalate [0x2C] (es.map MemberText.all) ++ 0x7D :: r) = some (es.map (fun m => (m.name, m.value.val)), r) := by
  induction es with
  | nil => exact absurd rfl hne
  | cons e es ih2 =>
    intro r f hf
    obtain ⟨w1, wn, w2, w3, w4⟩ := hw e (by simp)
    have rd := ih e (by simp)
    match f with
    | 0 => omega
    | f + 1 =>
      by_cases hes : es = []
      · subst hes
        simp only [List.map_cons, List.map_nil, inter_one, MemberText.all, ElemText.all, List.append_assoc, List.cons_append] at hf ⊢
        have hv := rd e.value.before (e.value.after ++ 0x7D :: r) f w3 (ws_stops w4 (stops_cons _ _ (by decide)))
          (by simp only [List.length_append, List.length_cons] at hf ⊢; omega)
        simp only [List.append_assoc] at hv
        rw [pMembers, skipWs_ws _ _ w1, skipWs_cons _ _ (by decide)]
        have hq : ∀ r, pStr ((e.nameText ++ 0x22 :: r).length + 1) (e.nameText ++ 0x22 :: r) = some (e.name, r) := fun r =>
          pStr_complete wn _ _ (by simp only [List.length_append, List.length_cons]; omega)
        simp only [hq]
        rw [skipWs_ws _ _ w2, skipWs_cons _ _ (by decide)]
        simp only [hv]
        rw [skipWs_ws _ _ w4, skipWs_cons _ _ (by decide)]
        rfl
      · rw [List.map_cons, inter_cons _ _ (by simpa using hes)] at hf ⊢
        have h2 := ih2 hes (fun x hx => hw x (List.mem_cons_of_mem _ hx)) (fun x hx => ih x (List.mem_cons_of_mem _ hx)) r f
          (by simp only [List.length_append, List.length_cons] at hf ⊢; omega)
        generalize List.intercalate [0x2C] (es.map MemberText.all) = rest at hf h2 ⊢
        simp only [MemberText.all, ElemText.all, List.append_assoc, List.cons_append] at hf ⊢
        have hv := rd e.value.before (e.value.after ++ 0x2C :: (rest ++ 0x7D :: r)) f w3 (ws_stops w4 (stops_cons _ _ (by decide)))
          (by simp only [List.length_append, List.length_cons] at hf ⊢; omega)
        simp only [List.append_assoc] at hv
        rw [pMembers, skipWs_ws _ _ w1, skipWs_cons _ _ (by decide)]
        have hq : ∀ r, pStr ((e.nameText ++ 0x22 :: r).length + 1) (e.nameText ++ 0x22 :: r) = some (e.name, r) := fun r =>
          pStr_complete wn _ _ (by simp only [List.length_append, List.length_cons]; omega)
        simp only [hq]
        rw [skipWs_ws _ _ w2, skipWs_cons _ _ (by decide)]
        simp only [hv]
        rw [skipWs_ws _ _ w4, skipWs_cons _ _ (by decide)]
        simp only [h2, Option.map_some, List.map_cons]

theorem inter_head (x : Bytes) (xs : List Bytes) : ∃ u, List.intercalate [0x2C] (x :: xs) = x ++ u := by
  by_cases h : xs = []
  · subst h; exact ⟨[], by rw [inter_one, List.append_nil]⟩
  · exact ⟨_, inter_cons x xs h⟩

theorem reads_of {t : Bytes} {v : JVal} (h : ValText t v) : Reads t v := by
  induction h with
  | null =>
    intro w r f hw _ hf
    match f with
    | 0 => omega
    | f + 1 => rw [pValue, ws_stop hw (by decide)]; simp [pLit]
  | true =>
    intro w r f hw _ hf
    match f with
    | 0 => omega
    | f + 1 => rw [pValue, ws_stop hw (by decide)]; simp [pLit]
  | false =>
    intro w r f hw _ hf
    match f with
    | 0 => omega
    | f + 1 => rw [pValue, ws_stop hw (by decide)]; simp [pLit]
  | @num s hn =>
    intro w r f hw hr hf
    match f with
    | 0 => omega
    | f + 1 =>
      obtain ⟨c, u, e, hc⟩ := number_first hn
      have hp := pNum_number hn hr
      subst e
      have a1 : c ≠ 0x7B ∧ c ≠ 0x5B ∧ c ≠ 0x22 ∧ c ≠ 0x74 ∧ c ≠ 0x66 ∧ c ≠ 0x6E := by
        rcases hc with rfl | hc
        · decide
        · have := (isDigit_iff c).mp hc
          refine ⟨?_, ?_, ?_, ?_, ?_, ?_⟩ <;> rintro rfl <;> simp at this
      obtain ⟨c', u', e', w1, -, -⟩ := valText_head (ValText.num hn)
      obtain ⟨rfl, rfl⟩ := List.cons.inj e'
      obtain ⟨b1, b2, b3, b4, b5, b6⟩ := a1
      rw [pValue, ws_stop hw w1]
      dsimp only
      rw [if_neg b1, if_neg b2, if_neg b3, if_neg b4, if_neg b5, if_neg b6]
      rw [List.cons_append] at hp
      rw [hp]; rfl
  | @str t v hs =>
    intro w r f hw _ hf
    match f with
    | 0 => omega
    | f + 1 =>
      rw [List.cons_append, pValue, ws_stop hw (by decide)]
      dsimp only
      rw [if_neg (by decide), if_neg (by decide), if_pos rfl, List.append_assoc, List.singleton_append]
      rw [pStr_complete hs _ _ (by simp only [List.length_append, List.length_cons]; omega)]
      rfl
  | @arr0 w' hw' =>
    intro w r f hw _ hf
    match f with
    | 0 => omega
    | f + 1 =>
      rw [List.cons_append, pValue, ws_stop hw (by decide)]
      dsimp only
      rw [if_neg (by decide), if_pos rfl, List.append_assoc, skipWs_ws _ _ hw', List.cons_append, skipWs_cons _ _ (by decide)]
      rfl
  | @obj0 w' hw' =>
    intro w r f hw _ hf
    match f with
    | 0 => omega
    | f + 1 =>
      rw [List.cons_append, pValue, ws_stop hw (by decide)]
      dsimp only
      rw [if_pos rfl, List.append_assoc, skipWs_ws _ _ hw', List.cons_append, skipWs_cons _ _ (by decide)]
      rfl
  | @arr es hne hw2 hv ih =>
    intro w r f hw _ hf
    match f with
    | 0 => omega
    | f + 1 =>
      have hc := pElems_complete es hne hw2 ih r f (by simp only [List.length_append, List.length_cons, List.length_nil] at hf ⊢; omega)
      rw [List.cons_append, pValue, ws_stop hw (by decide)]
      dsimp only
      rw [if_neg (by decide), if_pos rfl, List.append_assoc, List.singleton_append, hc]
      split
      · rename_i t' ht
        exfalso
        match es, hne with
        | e :: es, _ =>
          obtain ⟨u, hu⟩ := inter_head e.all (es.map ElemText.all)
          obtain ⟨c, u', e1, e2, e3, -⟩ := valText_head (hv e (by simp))
          rw [List.map_cons, hu] at ht
          simp only [ElemText.all, List.append_assoc] at ht
          rw [skipWs_ws _ _ (hw2 e (by simp)).1, e1, List.cons_append, skipWs_cons _ _ e2] at ht
          exact e3 (List.cons.inj ht).1
      · rfl
  | @obj es hne hw2 hv ih =>
    intro w r f hw _ hf
    match f with
    | 0 => omega
    | f + 1 =>
      have hc := pMembers_complete es hne hw2 ih r f (by simp only [List.length_append, List.length_cons, List.length_nil] at hf ⊢; omega)
      rw [List.cons_append, pValue, ws_stop hw (by decide)]
      dsimp only
      rw [if_pos rfl, List.append_assoc, List.singleton_append, hc]
      split
      · rename_i t' ht
        exfalso
        match es, hne with
        | e :: es, _ =>
          obtain ⟨u, hu⟩ := inter_head e.all (es.map MemberText.all)
          rw [List.map_cons, hu] at ht
          simp only [MemberText.all, List.append_assoc, List.cons_append] at ht
          rw [skipWs_ws _ _ (hw2 e (by simp)).1, skipWs_cons _ _ (by decide)] at ht
          exact absurd (List.cons.inj ht).1 (by decide)
      · rfl

/-- The reader accepts exactly the grammar. -/
theorem parse_iff (s : Bytes) (v : JVal) : parse s = some v ↔ JsonText s v := by
  constructor
  · intro h
    unfold parse at h
    split at h
    · rename_i v' t h1
      split at h
      · rename_i h2
        simp only [Option.some.injEq] at h
        subst h
        obtain ⟨w, u, hw, rfl, hu⟩ := (p_sound _).1 _ _ _ h1
        exact ⟨w, u, t, rfl, hw, (skipWs_nil_iff t).mp h2, hu⟩
      · exact nomatch h
    · exact nomatch h
  · rintro ⟨w1, t, w2, rfl, hw1, hw2, ht⟩
    have hr : Stops w2 := by
      have := ws_stops hw2 stops_nil
      rwa [List.append_nil] at this
    unfold parse
    rw [reads_of ht w1 w2 _ hw1 hr (by omega)]
    dsimp only
    rw [if_pos ((skipWs_nil_iff w2).mpr hw2)]

end Coniks.Json
