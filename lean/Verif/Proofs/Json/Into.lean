import Verif.Spec.JsonInto
import Verif.Proofs.Json.ReadBack
import Verif.Proofs.Json.GrammarV
/-
The decoders of the answers do what the specification says.
-/
namespace Coniks.Json
open Coniks Spec

/-- a decoder and a relation agree -/
def Agrees {α : Type} (dec : α → JVal → Option α) (R : α → JVal → α → Prop) : Prop := ∀ a v b, dec a v = some b ↔ R a v b

theorem steps_iff {α : Type} {dec : α → JVal → Option α} {R : α → JVal → α → Prop} (h : Agrees dec R) :
    ∀ (vs : List JVal) (a b : α), vs.foldlM dec a = some b ↔ Steps R vs a b
  | [], a, b => by
    rw [List.foldlM_nil]
    constructor
    · intro e; cases e; exact .none
    · intro s; cases s; rfl
  | v :: vs, a, b => by
    rw [List.foldlM_cons]
    constructor
    · intro e
      obtain ⟨c, h1, h2⟩ := Option.bind_eq_some_iff.mp e
      exact .more ((h _ _ _).mp h1) ((steps_iff h vs c b).mp h2)
    · intro s
      cases s with
      | more h1 h2 =>
        rw [(h _ _ _).mpr h1]
        exact (steps_iff h vs _ b).mpr h2

/-! ### Basic types -/

theorem agrees_int : Agrees decInt64 IntoInt := by
  intro a v b
  cases v with
  | num lit => simp [decInt64, IntoInt, Unless, parseInt_iff]
  | _ => simp [decInt64, IntoInt, Unless, eq_comm]

theorem agrees_u8 : Agrees decU8 IntoU8 := by
  intro a v b
  cases v with
  | num lit =>
    simp only [decU8, IntoU8, Unless, Option.map_eq_some_iff, parseUint_iff]
    constructor
    · rintro ⟨n, h1, rfl⟩
      refine .inr ⟨lit, rfl, ?_⟩
      rw [UInt8.toNat_ofNat_of_lt' (show n < UInt8.size from h1.2.2)]; exact h1
    · rintro (⟨h, -⟩ | ⟨l, h1, h2⟩)
      · exact nomatch h
      · cases h1
        exact ⟨_, h2, UInt8.ofNat_toNat⟩
  | _ => simp [decU8, IntoU8, Unless, eq_comm]

theorem agrees_u32 : Agrees decU32 IntoU32 := by
  intro a v b
  cases v with
  | num lit =>
    simp only [decU32, IntoU32, Unless, Option.map_eq_some_iff, parseUint_iff]
    constructor
    · rintro ⟨n, h1, rfl⟩
      refine .inr ⟨lit, rfl, ?_⟩
      rw [UInt32.toNat_ofNat_of_lt' (show n < UInt32.size from h1.2.2)]; exact h1
    · rintro (⟨h, -⟩ | ⟨l, h1, h2⟩)
      · exact nomatch h
      · cases h1
        exact ⟨_, h2, UInt32.ofNat_toNat⟩
  | _ => simp [decU32, IntoU32, Unless, eq_comm]

theorem agrees_u64 : Agrees decU64 IntoU64 := by
  intro a v b
  cases v with
  | num lit =>
    simp only [decU64, IntoU64, Unless, Option.map_eq_some_iff, parseUint_iff]
    constructor
    · rintro ⟨n, h1, rfl⟩
      refine .inr ⟨lit, rfl, ?_⟩
      rw [UInt64.toNat_ofNat_of_lt' (show n < UInt64.size from h1.2.2)]; exact h1
    · rintro (⟨h, -⟩ | ⟨l, h1, h2⟩)
      · exact nomatch h
      · cases h1
        exact ⟨_, h2, UInt64.ofNat_toNat⟩
  | _ => simp [decU64, IntoU64, Unless, eq_comm]

theorem agrees_bool : Agrees decBool IntoBool := by
  intro a v b
  cases v <;> simp [decBool, IntoBool, Unless, eq_comm]

theorem agrees_str : Agrees decStr IntoString := by
  intro a v b
  cases v <;> simp [decStr, IntoString, Unless, eq_comm]

theorem elems_iff {α : Type} {dec : α → JVal → Option α} {R : α → JVal → α → Prop} (h : Agrees dec R) (zero : α) :
    ∀ (vs : List JVal) (old new : List α), decElems zero dec old vs = some new ↔ IntoElems R zero old vs new
  | [], old, new => by
    simp only [decElems, Option.some.injEq, IntoElems, List.length_nil, List.length_eq_zero_iff]
    constructor
    · rintro rfl; exact ⟨rfl, by simp⟩
    · rintro ⟨rfl, -⟩; rfl
  | v :: vs, old, new => by
    have ih := elems_iff h zero vs old.tail
    simp only [decElems, Option.bind_eq_some_iff, Option.map_eq_some_iff]
    have hd : old.headD zero = old.getD 0 zero := by cases old <;> rfl
    have ht : ∀ i, old.tail.getD i zero = old.getD (i + 1) zero := by intro i; cases old <;> simp
    constructor
    · rintro ⟨x, h1, xs, h2, rfl⟩
      obtain ⟨l, e⟩ := (ih xs).mp h2
      refine ⟨by simp [l], ?_⟩
      intro i w y hw hy
      cases i with
      | zero =>
        simp only [List.getElem?_cons_zero, Option.some.injEq] at hw hy
        subst hw hy
        rw [← hd]; exact (h _ _ _).mp h1
      | succ i =>
        simp only [List.getElem?_cons_succ] at hw hy
        rw [← ht]; exact e i w y hw hy
    · rintro ⟨l, e⟩
      match new, l, e with
      | x :: xs, l, e =>
        refine ⟨x, ?_, xs, ?_, rfl⟩
        · rw [hd]; exact (h _ _ _).mpr (e 0 v x rfl rfl)
        · refine (ih xs).mpr ⟨by simpa using l, ?_⟩
          intro i w y hw hy
          rw [ht]; exact e (i + 1) w y (by simpa using hw) (by simpa using hy)

theorem agrees_slice {α : Type} {dec : α → JVal → Option α} {R : α → JVal → α → Prop} (h : Agrees dec R) (zero : α) :
    Agrees (decSlice zero dec) (IntoSlice R zero) := by
  intro a v b
  cases v with
  | arr vs => simp [decSlice, IntoSlice, elems_iff h]
  | _ => simp [decSlice, IntoSlice, eq_comm]

theorem agrees_bytes : Agrees decBytes IntoBytes := by
  intro a v b
  cases v with
  | arr vs => simp [decBytes, IntoBytes, IntoSlice, elems_iff agrees_u8]
  | str s => simp [decBytes, IntoBytes, IntoSlice, b64Dec_iff]
  | _ => simp [decBytes, IntoBytes, IntoSlice, eq_comm]

theorem agrees_ptr {α : Type} {dec : α → JVal → Option α} {R : α → JVal → α → Prop} (h : Agrees dec R) (zero : α) :
    Agrees (decPtr zero dec) (IntoPtr R zero) := by
  intro a v b
  have e : ∀ v, (Option.map some (dec (a.getD zero) v) = some b ↔ ∃ x, R (a.getD zero) v x ∧ b = some x) := by
    intro v
    rw [Option.map_eq_some_iff]
    exact exists_congr fun x => and_congr (h _ _ _) eq_comm
  cases v with
  | null => simp [decPtr, IntoPtr, eq_comm]
  | _ => simp [decPtr, IntoPtr, e]

theorem agrees_optBytes : Agrees decOptBytes (IntoPtr IntoBytes []) := by
  intro a v b
  have e : ∀ v, (Option.map some (decBytes (a.getD []) v) = some b ↔ ∃ x, IntoBytes (a.getD []) v x ∧ b = some x) := by
    intro v
    rw [Option.map_eq_some_iff]
    exact exists_congr fun x => and_congr (agrees_bytes _ _ _) eq_comm
  cases v with
  | null => simp [decOptBytes, IntoPtr, eq_comm]
  | _ => simp [decOptBytes, IntoPtr, e]

theorem agrees_arr32 : Agrees decArr32 IntoArr32 := by
  intro a v b
  cases v with
  | arr vs =>
    simp only [decArr32, IntoArr32, Option.map_eq_some_iff, elems_iff agrees_u8]
    constructor
    · rintro ⟨xs, ⟨l, e⟩, rfl⟩
      refine .inr ⟨vs, rfl, ?_⟩
      intro i hi
      have l' : xs.length = min 32 vs.length := by rw [l, List.length_take]
      split
      · rename_i x hx
        have hlt : i < vs.length := (List.getElem?_eq_some_iff.mp hx).1
        have hix : i < xs.length := by omega
        have e1 : xs[i]? = some xs[i] := List.getElem?_eq_getElem hix
        have e2 : ((xs ++ List.replicate 32 0).take 32).getD i 0 = xs[i] := by
          rw [List.getD_eq_getElem?_getD, List.getElem?_take_of_lt hi, List.getElem?_append_left hix, e1]; rfl
        have := e i x xs[i] (by rw [List.getElem?_take_of_lt hi]; exact hx) e1
        dsimp only
        rw [e2]; exact this
      · rename_i hx
        have hge : vs.length ≤ i := List.getElem?_eq_none_iff.mp hx
        have hix : xs.length ≤ i := by omega
        dsimp only
        rw [List.getD_eq_getElem?_getD, List.getElem?_take_of_lt hi, List.getElem?_append_right hix]
        cases h : (List.replicate 32 (0 : UInt8))[i - xs.length]? with
        | none => rfl
        | some y =>
          have := List.mem_of_getElem? h
          rw [List.mem_replicate] at this
          rw [this.2]; rfl
    · rintro (⟨h, -⟩ | ⟨vs', h, e⟩)
      · exact nomatch h
      · cases h
        refine ⟨b.1.take vs.length, ⟨?_, ?_⟩, ?_⟩
        · rw [List.length_take, List.length_take, b.2, Nat.min_comm]
        · intro i v x hv hx
          have hi : i < 32 := by
            have := (List.getElem?_eq_some_iff.mp hv).1
            rw [List.length_take] at this; omega
          have := e i hi
          rw [List.getElem?_take_of_lt hi] at hv
          rw [hv] at this
          have hlt : i < vs.length := (List.getElem?_eq_some_iff.mp hv).1
          rw [List.getElem?_take_of_lt hlt] at hx
          dsimp only at this
          rw [List.getD_eq_getElem?_getD (l := b.1), hx] at this
          exact this
        · apply Subtype.ext
          apply List.ext_getElem?
          intro i
          by_cases hi : i < 32
          · rw [List.getElem?_take_of_lt hi]
            have hb : b.1[i]? = some (b.1.getD i 0) := by
              rw [List.getD_eq_getElem?_getD, List.getElem?_eq_getElem (by rw [b.2]; exact hi)]; rfl
            by_cases hv : i < vs.length
            · rw [List.getElem?_append_left (by rw [List.length_take, b.2]; omega), List.getElem?_take_of_lt hv]
            · have hl : (b.1.take vs.length).length ≤ i := by rw [List.length_take, b.2]; omega
              have := e i hi
              rw [List.getElem?_eq_none (by omega)] at this
              dsimp only at this
              rw [List.getElem?_append_right hl, hb, this, List.getElem?_replicate, if_pos (by omega)]
          · rw [List.getElem?_eq_none (by simp; omega), List.getElem?_eq_none (by rw [b.2]; omega)]
  | _ => simp [decArr32, IntoArr32, eq_comm]

/-! ### Structs -/

/-- one field of a struct: its name, how to get and set it, how it is decoded -/
structure Fld (σ : Type) where
  name : String
  {α : Type}
  get : σ → α
  set : σ → α → σ
  dec : α → JVal → Option α

/-- the decoder of a struct that is described by its fields -/
structure IsStruct {σ : Type} {n : Nat} (F : Fin n → Fld σ) (names : List Bytes) (f : Nat → σ → JVal → Option σ) : Prop where
  len : names.length = n
  name : ∀ (i : Fin n), names[i.val]? = some (ascii (F i).name)
  nodup : (names.map foldName).Nodup
  small : (names.all fun n => n.all fun b => b < 0x80) = true
  eq : ∀ (i : Fin n) s v, f i.val s v = ((F i).dec ((F i).get s) v).map ((F i).set s)
  same : ∀ (i : Fin n) s x, (F i).get ((F i).set s x) = x
  other : ∀ (i j : Fin n), i ≠ j → ∀ s x, (F i).get ((F j).set s x) = (F i).get s

theorem vals_cons (name : String) (k : Bytes) (v : JVal) (ms : List (Bytes × JVal)) :
    vals name ((k, v) :: ms) = if sameName (ascii name) k then v :: vals name ms else vals name ms := by
  unfold vals
  rw [List.filter_cons]
  split <;> rfl

theorem IsStruct.field {σ : Type} {n : Nat} {F : Fin n → Fld σ} {names : List Bytes} {f : Nat → σ → JVal → Option σ} (h : IsStruct F names f)
    (k : Bytes) (i : Fin n) : field names k = some i.val ↔ sameName (ascii (F i).name) k = true := by
  have hi : i.val < names.length := by rw [h.len]; exact i.isLt
  have hn : names[i.val] = ascii (F i).name := by
    have := h.name i
    rw [List.getElem?_eq_getElem hi] at this
    exact Option.some.inj this
  rw [field_iff names h.nodup k i.val hi, hn, sameName_iff, beq_iff_eq]
  have := List.all_eq_true.mp h.small _ (List.getElem_mem hi)
  rw [hn] at this
  simpa using this

/-- every field becomes what the values with its name make of it -/
theorem IsStruct.forth {σ : Type} {n : Nat} {F : Fin n → Fld σ} {names : List Bytes} {f : Nat → σ → JVal → Option σ} (h : IsStruct F names f) :
    ∀ (ms : List (Bytes × JVal)) (s s' : σ), ms.foldlM (memberStep names f) s = some s' →
      ∀ i, (vals (F i).name ms).foldlM (F i).dec ((F i).get s) = some ((F i).get s')
  | [], s, s', e, i => by
    rw [List.foldlM_nil] at e
    cases e; rfl
  | (k, v) :: ms, s, s', e, i => by
    rw [List.foldlM_cons] at e
    obtain ⟨s1, h1, h2⟩ := Option.bind_eq_some_iff.mp e
    have ih := h.forth ms s1 s' h2 i
    rw [vals_cons]
    unfold memberStep at h1
    cases hk : Json.field names k with
    | none =>
      simp only [hk, Option.some.injEq] at h1
      subst h1
      rw [if_neg]
      · exact ih
      · intro hs
        rw [(h.field k i).mpr hs] at hk
        exact nomatch hk
    | some j =>
      have hj : j < n := by rw [← h.len]; exact field_lt hk
      simp only [hk] at h1
      have := h.eq ⟨j, hj⟩ s v
      dsimp only at this
      rw [this] at h1
      obtain ⟨x, h3, rfl⟩ := Option.map_eq_some_iff.mp h1
      by_cases hij : i = ⟨j, hj⟩
      · subst hij
        rw [if_pos ((h.field k _).mp hk), List.foldlM_cons, h3]
        rw [h.same] at ih
        exact ih
      · rw [if_neg]
        · rw [h.other i _ hij] at ih
          exact ih
        · intro hs
          have := (h.field k i).mpr hs
          rw [hk] at this
          simp only [Option.some.injEq] at this
          exact hij (Fin.ext this.symm)

/-- if all fields can be decoded, so can the struct -/
theorem IsStruct.back {σ : Type} {n : Nat} {F : Fin n → Fld σ} {names : List Bytes} {f : Nat → σ → JVal → Option σ} (h : IsStruct F names f) :
    ∀ (ms : List (Bytes × JVal)) (s : σ), (∀ i, ∃ y, (vals (F i).name ms).foldlM (F i).dec ((F i).get s) = some y) →
      ∃ s', ms.foldlM (memberStep names f) s = some s'
  | [], s, _ => ⟨s, rfl⟩
  | (k, v) :: ms, s, hi => by
    rw [List.foldlM_cons]
    unfold memberStep
    cases hk : Json.field names k with
    | none =>
      simp only []
      refine h.back ms s fun i => ?_
      have := hi i
      rw [vals_cons, if_neg] at this
      · exact this
      · intro hs
        rw [(h.field k i).mpr hs] at hk
        exact nomatch hk
    | some j =>
      have hj : j < n := by rw [← h.len]; exact field_lt hk
      obtain ⟨y, hy⟩ := hi ⟨j, hj⟩
      rw [vals_cons, if_pos ((h.field k _).mp hk), List.foldlM_cons] at hy
      obtain ⟨x, h3, h4⟩ := Option.bind_eq_some_iff.mp hy
      have := h.eq ⟨j, hj⟩ s v
      dsimp only at this
      simp only [this, h3, Option.map_some]
      refine h.back ms _ fun i => ?_
      by_cases hij : i = ⟨j, hj⟩
      · subst hij
        rw [h.same]
        exact ⟨y, h4⟩
      · rw [h.other i _ hij]
        have := hi i
        rw [vals_cons, if_neg] at this
        · exact this
        · intro hs
          have := (h.field k i).mpr hs
          rw [hk] at this
          simp only [Option.some.injEq] at this
          exact hij (Fin.ext this.symm)

/-- for a struct that is determined by its fields -/
theorem IsStruct.iff {σ : Type} {n : Nat} {F : Fin n → Fld σ} {names : List Bytes} {f : Nat → σ → JVal → Option σ} (h : IsStruct F names f)
    (ext : ∀ s s', (∀ i, (F i).get s = (F i).get s') → s = s') (ms : List (Bytes × JVal)) (s s' : σ) :
    ms.foldlM (memberStep names f) s = some s' ↔ ∀ i, (vals (F i).name ms).foldlM (F i).dec ((F i).get s) = some ((F i).get s') := by
  constructor
  · exact fun e => h.forth ms s s' e
  · intro hi
    obtain ⟨t, ht⟩ := h.back ms s fun i => ⟨_, hi i⟩
    rw [ht]
    congr 1
    apply ext
    intro i
    have := h.forth ms s t ht i
    rw [hi i] at this
    exact (Option.some.inj this).symm

theorem agrees_struct {σ : Type} {names : List Bytes} {f : Nat → σ → JVal → Option σ} {P : List (Bytes × JVal) → σ → σ → Prop}
    (h : ∀ ms s s', ms.foldlM (memberStep names f) s = some s' ↔ P ms s s') : Agrees (decStruct names f) (IntoStruct P) := by
  intro a v b
  cases v with
  | obj ms => simp [decStruct, IntoStruct, h]
  | _ => simp [decStruct, IntoStruct, eq_comm]

theorem fin2 {P : Fin 2 → Prop} : (∀ i, P i) ↔ P 0 ∧ P 1 :=
  ⟨fun h => ⟨h 0, h 1⟩, fun ⟨a, b⟩ i => match i with | 0 => a | 1 => b⟩
theorem fin3 {P : Fin 3 → Prop} : (∀ i, P i) ↔ P 0 ∧ P 1 ∧ P 2 :=
  ⟨fun h => ⟨h 0, h 1, h 2⟩, fun ⟨a, b, c⟩ i => match i with | 0 => a | 1 => b | 2 => c⟩
theorem fin4 {P : Fin 4 → Prop} : (∀ i, P i) ↔ P 0 ∧ P 1 ∧ P 2 ∧ P 3 :=
  ⟨fun h => ⟨h 0, h 1, h 2, h 3⟩, fun ⟨a, b, c, d⟩ i => match i with | 0 => a | 1 => b | 2 => c | 3 => d⟩
theorem fin5 {P : Fin 5 → Prop} : (∀ i, P i) ↔ P 0 ∧ P 1 ∧ P 2 ∧ P 3 ∧ P 4 :=
  ⟨fun h => ⟨h 0, h 1, h 2, h 3, h 4⟩, fun ⟨a, b, c, d, e⟩ i => match i with | 0 => a | 1 => b | 2 => c | 3 => d | 4 => e⟩
theorem fin6 {P : Fin 6 → Prop} : (∀ i, P i) ↔ P 0 ∧ P 1 ∧ P 2 ∧ P 3 ∧ P 4 ∧ P 5 :=
  ⟨fun h => ⟨h 0, h 1, h 2, h 3, h 4, h 5⟩, fun ⟨a, b, c, d, e, g⟩ i => match i with | 0 => a | 1 => b | 2 => c | 3 => d | 4 => e | 5 => g⟩

/-- `Commit` -/
def fldCommit : Fin 2 → Fld Commit
  | 0 => ⟨"Salt", fun c => c.salt, fun c x => { c with salt := x }, decBytes⟩
  | 1 => ⟨"Value", fun c => c.value, fun c x => { c with value := x }, decBytes⟩

theorem agrees_commit : Agrees decCommit IntoCommit := by
  refine agrees_struct fun ms s s' => ?_
  refine (IsStruct.iff (F := fldCommit) ?_ ?_ ms s s').trans ?_
  · constructor
    · rfl
    · rw [fin2]; exact ⟨rfl, rfl⟩
    · decide +kernel
    · decide +kernel
    · rw [fin2]; exact ⟨fun _ _ => rfl, fun _ _ => rfl⟩
    · rw [fin2]; exact ⟨fun _ _ => rfl, fun _ _ => rfl⟩
    · simp only [fin2]; simp [fldCommit]
  · intro s s'
    rw [fin2]; cases s; cases s'; simp +contextual [fldCommit]
  · rw [fin2]
    exact and_congr (steps_iff agrees_bytes _ _ _) (steps_iff agrees_bytes _ _ _)

/-- `ProofNode` -/
def fldProofNode : Fin 5 → Fld ProofNode
  | 0 => ⟨"Level", fun c => c.level, fun c x => { c with level := x }, decU32⟩
  | 1 => ⟨"Index", fun c => c.index, fun c x => { c with index := x }, decBytes⟩
  | 2 => ⟨"Value", fun c => c.value, fun c x => { c with value := x }, decOptBytes⟩
  | 3 => ⟨"IsEmpty", fun c => c.isEmpty, fun c x => { c with isEmpty := x }, decBool⟩
  | 4 => ⟨"Commitment", fun c => c.commitment, fun c x => { c with commitment := x }, decPtr ⟨[], []⟩ decCommit⟩

theorem agrees_proofNode : Agrees decProofNode IntoProofNode := by
  refine agrees_struct fun ms s s' => ?_
  refine (IsStruct.iff (F := fldProofNode) ?_ ?_ ms s s').trans ?_
  · constructor
    · rfl
    · rw [fin5]; exact ⟨rfl, rfl, rfl, rfl, rfl⟩
    · decide +kernel
    · decide +kernel
    · rw [fin5]; exact ⟨fun _ _ => rfl, fun _ _ => rfl, fun _ _ => rfl, fun _ _ => rfl, fun _ _ => rfl⟩
    · rw [fin5]; exact ⟨fun _ _ => rfl, fun _ _ => rfl, fun _ _ => rfl, fun _ _ => rfl, fun _ _ => rfl⟩
    · simp only [fin5]; simp [fldProofNode]
  · intro s s'
    rw [fin5]; cases s; cases s'; simp +contextual [fldProofNode]
  · rw [fin5]
    exact and_congr (steps_iff agrees_u32 _ _ _) (and_congr (steps_iff agrees_bytes _ _ _) (and_congr (steps_iff agrees_optBytes _ _ _) (and_congr (steps_iff agrees_bool _ _ _) (steps_iff (agrees_ptr agrees_commit _) _ _ _))))

/-- `AuthPath` -/
def fldAuthPath : Fin 5 → Fld AuthPath
  | 0 => ⟨"TreeNonce", fun c => c.treeNonce, fun c x => { c with treeNonce := x }, decBytes⟩
  | 1 => ⟨"PrunedTree", fun c => c.prunedTree, fun c x => { c with prunedTree := x }, decSlice zero32 decArr32⟩
  | 2 => ⟨"LookupIndex", fun c => c.lookupIndex, fun c x => { c with lookupIndex := x }, decBytes⟩
  | 3 => ⟨"VrfProof", fun c => c.vrfProof, fun c x => { c with vrfProof := x }, decBytes⟩
  | 4 => ⟨"Leaf", fun c => c.leaf, fun c x => { c with leaf := x }, decPtr ⟨0, [], none, false, none⟩ decProofNode⟩

theorem agrees_authPath : Agrees decAuthPath IntoAuthPath := by
  refine agrees_struct fun ms s s' => ?_
  refine (IsStruct.iff (F := fldAuthPath) ?_ ?_ ms s s').trans ?_
  · constructor
    · rfl
    · rw [fin5]; exact ⟨rfl, rfl, rfl, rfl, rfl⟩
    · decide +kernel
    · decide +kernel
    · rw [fin5]; exact ⟨fun _ _ => rfl, fun _ _ => rfl, fun _ _ => rfl, fun _ _ => rfl, fun _ _ => rfl⟩
    · rw [fin5]; exact ⟨fun _ _ => rfl, fun _ _ => rfl, fun _ _ => rfl, fun _ _ => rfl, fun _ _ => rfl⟩
    · simp only [fin5]; simp [fldAuthPath]
  · intro s s'
    rw [fin5]; cases s; cases s'; simp +contextual [fldAuthPath]
  · rw [fin5]
    exact and_congr (steps_iff agrees_bytes _ _ _) (and_congr (steps_iff (agrees_slice agrees_arr32 _) _ _ _) (and_congr (steps_iff agrees_bytes _ _ _) (and_congr (steps_iff agrees_bytes _ _ _) (steps_iff (agrees_ptr agrees_proofNode _) _ _ _))))

/-- `Policies` -/
def fldPolicies : Fin 4 → Fld Policies
  | 0 => ⟨"Version", fun c => c.version, fun c x => { c with version := x }, decStr⟩
  | 1 => ⟨"HashID", fun c => c.hashID, fun c x => { c with hashID := x }, decStr⟩
  | 2 => ⟨"VrfPublicKey", fun c => c.vrfPublicKey, fun c x => { c with vrfPublicKey := x }, decBytes⟩
  | 3 => ⟨"EpochDeadline", fun c => c.epochDeadline, fun c x => { c with epochDeadline := x }, decU64⟩

theorem agrees_policies : Agrees decPolicies IntoPolicies := by
  refine agrees_struct fun ms s s' => ?_
  refine (IsStruct.iff (F := fldPolicies) ?_ ?_ ms s s').trans ?_
  · constructor
    · rfl
    · rw [fin4]; exact ⟨rfl, rfl, rfl, rfl⟩
    · decide +kernel
    · decide +kernel
    · rw [fin4]; exact ⟨fun _ _ => rfl, fun _ _ => rfl, fun _ _ => rfl, fun _ _ => rfl⟩
    · rw [fin4]; exact ⟨fun _ _ => rfl, fun _ _ => rfl, fun _ _ => rfl, fun _ _ => rfl⟩
    · simp only [fin4]; simp [fldPolicies]
  · intro s s'
    rw [fin4]; cases s; cases s'; simp +contextual [fldPolicies]
  · rw [fin4]
    exact and_congr (steps_iff agrees_str _ _ _) (and_congr (steps_iff agrees_str _ _ _) (and_congr (steps_iff agrees_bytes _ _ _) (steps_iff agrees_u64 _ _ _)))

/-- `TB` -/
def fldTB : Fin 3 → Fld TB
  | 0 => ⟨"Index", fun c => c.index, fun c x => { c with index := x }, decBytes⟩
  | 1 => ⟨"Value", fun c => c.value, fun c x => { c with value := x }, decBytes⟩
  | 2 => ⟨"Signature", fun c => c.signature, fun c x => { c with signature := x }, decBytes⟩

theorem agrees_tB : Agrees decTB IntoTB := by
  refine agrees_struct fun ms s s' => ?_
  refine (IsStruct.iff (F := fldTB) ?_ ?_ ms s s').trans ?_
  · constructor
    · rfl
    · rw [fin3]; exact ⟨rfl, rfl, rfl⟩
    · decide +kernel
    · decide +kernel
    · rw [fin3]; exact ⟨fun _ _ => rfl, fun _ _ => rfl, fun _ _ => rfl⟩
    · rw [fin3]; exact ⟨fun _ _ => rfl, fun _ _ => rfl, fun _ _ => rfl⟩
    · simp only [fin3]; simp [fldTB]
  · intro s s'
    rw [fin3]; cases s; cases s'; simp +contextual [fldTB]
  · rw [fin3]
    exact and_congr (steps_iff agrees_bytes _ _ _) (and_congr (steps_iff agrees_bytes _ _ _) (steps_iff agrees_bytes _ _ _))

/-- the root that is read into -/
def rootOf (s : WireSTR) : STRCore := s.root.getD ⟨[], 0, 0, [], []⟩

/-- `DirSTR` -/
def fldSTR : Fin 6 → Fld WireSTR
  | 0 => ⟨"TreeHash", fun s => (rootOf s).treeHash, fun s x => { s with root := some { rootOf s with treeHash := x } }, decBytes⟩
  | 1 => ⟨"Epoch", fun s => (rootOf s).epoch, fun s x => { s with root := some { rootOf s with epoch := x } }, decU64⟩
  | 2 => ⟨"PreviousEpoch", fun s => (rootOf s).previousEpoch, fun s x => { s with root := some { rootOf s with previousEpoch := x } }, decU64⟩
  | 3 => ⟨"PreviousSTRHash", fun s => (rootOf s).previousSTRHash, fun s x => { s with root := some { rootOf s with previousSTRHash := x } }, decBytes⟩
  | 4 => ⟨"Signature", fun s => (rootOf s).signature, fun s x => { s with root := some { rootOf s with signature := x } }, decBytes⟩
  | 5 => ⟨"Policies", fun s => s.policies, fun s x => { s with policies := x }, decPtr ⟨[], [], [], 0⟩ decPolicies⟩

theorem struct_str : IsStruct fldSTR [ascii "TreeHash", ascii "Epoch", ascii "PreviousEpoch", ascii "PreviousSTRHash", ascii "Signature", ascii "Policies"]
    fun i s v =>
      if i < 5 then (decRoot i (s.root.getD ⟨[], 0, 0, [], []⟩) v).map fun x => { s with root := some x }
      else (decPtr ⟨[], [], [], 0⟩ decPolicies s.policies v).map fun x => { s with policies := x } := by
  constructor
  · rfl
  · rw [fin6]; exact ⟨rfl, rfl, rfl, rfl, rfl, rfl⟩
  · decide +kernel
  · decide +kernel
  · rw [fin6]
    refine ⟨?_, ?_, ?_, ?_, ?_, fun _ _ => rfl⟩ <;> intro s v
    · show Option.map _ (Option.map _ (decBytes _ v)) = _
      rw [Option.map_map]; rfl
    · show Option.map _ (Option.map _ (decU64 _ v)) = _
      rw [Option.map_map]; rfl
    · show Option.map _ (Option.map _ (decU64 _ v)) = _
      rw [Option.map_map]; rfl
    · show Option.map _ (Option.map _ (decBytes _ v)) = _
      rw [Option.map_map]; rfl
    · show Option.map _ (Option.map _ (decBytes _ v)) = _
      rw [Option.map_map]; rfl
  · rw [fin6]; exact ⟨fun _ _ => rfl, fun _ _ => rfl, fun _ _ => rfl, fun _ _ => rfl, fun _ _ => rfl, fun _ _ => rfl⟩
  · simp only [fin6]; simp [fldSTR, rootOf]

/-- the root is allocated by the first of its members -/
theorem str_alloc : ∀ (ms : List (Bytes × JVal)) (s s' : WireSTR),
    ms.foldlM (memberStep [ascii "TreeHash", ascii "Epoch", ascii "PreviousEpoch", ascii "PreviousSTRHash", ascii "Signature", ascii "Policies"]
    fun i s v =>
      if i < 5 then (decRoot i (s.root.getD ⟨[], 0, 0, [], []⟩) v).map fun x => { s with root := some x }
      else (decPtr ⟨[], [], [], 0⟩ decPolicies s.policies v).map fun x => { s with policies := x }) s = some s' →
    (s'.root = none ↔ s.root = none ∧ ∀ name ∈ ["TreeHash", "Epoch", "PreviousEpoch", "PreviousSTRHash", "Signature"], vals name ms = [])
  | [], s, s', e => by
    rw [List.foldlM_nil] at e
    cases e
    simp [vals]
  | (k, v) :: ms, s, s', e => by
    rw [List.foldlM_cons] at e
    obtain ⟨s1, h1, h2⟩ := Option.bind_eq_some_iff.mp e
    rw [str_alloc ms s1 s' h2]
    unfold memberStep at h1
    simp only [List.mem_cons, List.not_mem_nil, or_false, forall_eq_or_imp, forall_eq, vals_cons]
    have fd := struct_str.field k
    rw [fin6] at fd
    obtain ⟨f0, f1, f2, f3, f4, f5⟩ := fd
    cases hk : Json.field [ascii "TreeHash", ascii "Epoch", ascii "PreviousEpoch", ascii "PreviousSTRHash", ascii "Signature", ascii "Policies"] k with
    | none =>
      simp only [hk, Option.some.injEq] at h1
      subst h1
      rw [hk] at f0 f1 f2 f3 f4
      have n0 : ¬ sameName (ascii "TreeHash") k = true := fun h => nomatch f0.mpr h
      have n1 : ¬ sameName (ascii "Epoch") k = true := fun h => nomatch f1.mpr h
      have n2 : ¬ sameName (ascii "PreviousEpoch") k = true := fun h => nomatch f2.mpr h
      have n3 : ¬ sameName (ascii "PreviousSTRHash") k = true := fun h => nomatch f3.mpr h
      have n4 : ¬ sameName (ascii "Signature") k = true := fun h => nomatch f4.mpr h
      rw [if_neg n0, if_neg n1, if_neg n2, if_neg n3, if_neg n4]
    | some j =>
      simp only [hk] at h1
      rw [hk] at f0 f1 f2 f3 f4
      have hj : j < 6 := field_lt hk
      by_cases h5 : j < 5
      · rw [if_pos h5] at h1
        obtain ⟨x, -, rfl⟩ := Option.map_eq_some_iff.mp h1
        simp only [reduceCtorEq, false_and, false_iff]
        rintro ⟨-, g0, g1, g2, g3, g4⟩
        rcases (by omega : j = 0 ∨ j = 1 ∨ j = 2 ∨ j = 3 ∨ j = 4) with rfl | rfl | rfl | rfl | rfl
        · have e : (if sameName (ascii "TreeHash") k = true then v :: vals "TreeHash" ms else vals "TreeHash" ms) = v :: vals "TreeHash" ms := if_pos (f0.mp rfl)
          rw [e] at g0; exact nomatch g0
        · have e : (if sameName (ascii "Epoch") k = true then v :: vals "Epoch" ms else vals "Epoch" ms) = v :: vals "Epoch" ms := if_pos (f1.mp rfl)
          rw [e] at g1; exact nomatch g1
        · have e : (if sameName (ascii "PreviousEpoch") k = true then v :: vals "PreviousEpoch" ms else vals "PreviousEpoch" ms) = v :: vals "PreviousEpoch" ms := if_pos (f2.mp rfl)
          rw [e] at g2; exact nomatch g2
        · have e : (if sameName (ascii "PreviousSTRHash") k = true then v :: vals "PreviousSTRHash" ms else vals "PreviousSTRHash" ms) = v :: vals "PreviousSTRHash" ms := if_pos (f3.mp rfl)
          rw [e] at g3; exact nomatch g3
        · have e : (if sameName (ascii "Signature") k = true then v :: vals "Signature" ms else vals "Signature" ms) = v :: vals "Signature" ms := if_pos (f4.mp rfl)
          rw [e] at g4; exact nomatch g4
      · rw [if_neg h5] at h1
        obtain ⟨x, -, rfl⟩ := Option.map_eq_some_iff.mp h1
        have hj5 : j = 5 := by omega
        subst hj5
        have n0 : ¬ sameName (ascii "TreeHash") k = true := fun h => absurd (Option.some.inj (f0.mpr h)) (by decide)
        have n1 : ¬ sameName (ascii "Epoch") k = true := fun h => absurd (Option.some.inj (f1.mpr h)) (by decide)
        have n2 : ¬ sameName (ascii "PreviousEpoch") k = true := fun h => absurd (Option.some.inj (f2.mpr h)) (by decide)
        have n3 : ¬ sameName (ascii "PreviousSTRHash") k = true := fun h => absurd (Option.some.inj (f3.mpr h)) (by decide)
        have n4 : ¬ sameName (ascii "Signature") k = true := fun h => absurd (Option.some.inj (f4.mpr h)) (by decide)
        rw [if_neg n0, if_neg n1, if_neg n2, if_neg n3, if_neg n4]

theorem agrees_str' : Agrees decSTR IntoSTR := by
  refine agrees_struct fun ms s s' => ?_
  have st := fun (a b : UInt64) (name : String) => steps_iff agrees_u64 (vals name ms) a b
  have sb := fun (a b : Bytes) (name : String) => steps_iff agrees_bytes (vals name ms) a b
  have sp := steps_iff (agrees_ptr agrees_policies ⟨[], [], [], 0⟩) (vals "Policies" ms) s.policies s'.policies
  constructor
  · intro e
    have al := str_alloc ms s s' e
    have fo := struct_str.forth ms s s' e
    rw [fin6] at fo
    obtain ⟨f0, f1, f2, f3, f4, f5⟩ := fo
    refine ⟨sp.mp f5, ?_⟩
    split
    · rename_i h; exact al.mpr h
    · rename_i h
      cases hr : s'.root with
      | none => exact absurd (al.mp hr) h
      | some r =>
        refine ⟨r, rfl, ?_⟩
        have e : rootOf s' = r := by unfold rootOf; rw [hr]; rfl
        simp only [fldSTR, e] at f0 f1 f2 f3 f4
        exact ⟨(sb _ _ _).mp f0, (st _ _ _).mp f1, (st _ _ _).mp f2, (sb _ _ _).mp f3, (sb _ _ _).mp f4⟩
  · rintro ⟨h5, h⟩
    have hroot : IntoRoot ms (rootOf s) (rootOf s') := by
      split at h
      · rename_i hn
        obtain ⟨hn1, hn2⟩ := hn
        simp only [List.mem_cons, List.not_mem_nil, or_false, forall_eq_or_imp, forall_eq] at hn2
        have e1 : rootOf s = rootOf s' := by unfold rootOf; rw [hn1, h]
        rw [← e1]
        unfold IntoRoot Field
        rw [hn2.1, hn2.2.1, hn2.2.2.1, hn2.2.2.2.1, hn2.2.2.2.2]
        exact ⟨.none, .none, .none, .none, .none⟩
      · obtain ⟨r', h1, h2⟩ := h
        have e1 : rootOf s' = r' := by unfold rootOf; rw [h1]; rfl
        rw [e1]; exact h2
    obtain ⟨g0, g1, g2, g3, g4⟩ := hroot
    have g : ∀ i, (vals (fldSTR i).name ms).foldlM (fldSTR i).dec ((fldSTR i).get s) = some ((fldSTR i).get s') := by
      rw [fin6]
      exact ⟨(sb _ _ _).mpr g0, (st _ _ _).mpr g1, (st _ _ _).mpr g2, (sb _ _ _).mpr g3, (sb _ _ _).mpr g4, sp.mpr h5⟩
    obtain ⟨t, ht⟩ := struct_str.back ms s fun i => ⟨_, g i⟩
    rw [ht]
    have fo := struct_str.forth ms s t ht
    have al := str_alloc ms s t ht
    have eq : ∀ i, (fldSTR i).get t = (fldSTR i).get s' := by
      intro i
      have := fo i
      rw [g i] at this
      exact (Option.some.inj this).symm
    rw [fin6] at eq
    obtain ⟨q0, q1, q2, q3, q4, q5⟩ := eq
    have er : rootOf t = rootOf s' := by
      simp only [fldSTR] at q0 q1 q2 q3 q4
      cases h1 : rootOf t; cases h2 : rootOf s'
      rw [h1, h2] at q0 q1 q2 q3 q4
      dsimp only at q0 q1 q2 q3 q4
      subst q0 q1 q2 q3 q4
      rfl
    have hs : s'.root = none ↔ s.root = none ∧ ∀ name ∈ ["TreeHash", "Epoch", "PreviousEpoch", "PreviousSTRHash", "Signature"], vals name ms = [] := by
      split at h
      · rename_i hn; exact ⟨fun _ => hn, fun _ => h⟩
      · rename_i hn
        obtain ⟨r', h1, -⟩ := h
        rw [h1]
        exact ⟨fun h => (nomatch h), fun h => absurd h hn⟩
    have hts : t.root = none ↔ s'.root = none := al.trans hs.symm
    have : t.root = s'.root := by
      cases h1 : t.root with
      | none => exact (hts.mp h1).symm
      | some r =>
        cases h2 : s'.root with
        | none => rw [hts.mpr h2] at h1; exact nomatch h1
        | some r' =>
          unfold rootOf at er
          rw [h1, h2] at er
          exact congrArg some er
    obtain ⟨tr, tp⟩ := t
    obtain ⟨sr, sp'⟩ := s'
    dsimp only at this
    have q5' : tp = sp' := q5
    rw [this, q5']

/-- `Proof` -/
def fldProof : Fin 3 → Fld WireProof
  | 0 => ⟨"AP", fun c => c.ap, fun c x => { c with ap := x }, decSlice none (decPtr ⟨[], [], [], [], none⟩ decAuthPath)⟩
  | 1 => ⟨"STR", fun c => c.str, fun c x => { c with str := x }, decSlice none (decPtr ⟨none, none⟩ decSTR)⟩
  | 2 => ⟨"TB", fun c => c.tb, fun c x => { c with tb := x }, decPtr ⟨[], [], []⟩ decTB⟩

theorem agrees_proof : Agrees decProof IntoProof := by
  refine agrees_struct fun ms s s' => ?_
  refine (IsStruct.iff (F := fldProof) ?_ ?_ ms s s').trans ?_
  · constructor
    · rfl
    · rw [fin3]; exact ⟨rfl, rfl, rfl⟩
    · decide +kernel
    · decide +kernel
    · rw [fin3]; exact ⟨fun _ _ => rfl, fun _ _ => rfl, fun _ _ => rfl⟩
    · rw [fin3]; exact ⟨fun _ _ => rfl, fun _ _ => rfl, fun _ _ => rfl⟩
    · simp only [fin3]; simp [fldProof]
  · intro s s'
    rw [fin3]; cases s; cases s'; simp +contextual [fldProof]
  · rw [fin3]
    exact and_congr (steps_iff (agrees_slice (agrees_ptr agrees_authPath _) _) _ _ _) (and_congr (steps_iff (agrees_slice (agrees_ptr agrees_str' _) _) _ _ _) (steps_iff (agrees_ptr agrees_tB _) _ _ _))

theorem agrees_history : Agrees decHistory IntoHistory := by
  refine agrees_struct fun ms s s' => ?_
  refine (IsStruct.iff (n := 1) (F := fun _ => ⟨"STR", fun l => l, fun _ l => l, decSlice none (decPtr ⟨none, none⟩ decSTR)⟩) ?_ ?_ ms s s').trans ?_
  · constructor
    · rfl
    · intro i
      have : i = 0 := Subsingleton.elim _ _
      subst this; rfl
    · decide +kernel
    · decide +kernel
    · intro i s v
      simp
    · intro i s x; rfl
    · intro i j h; exact absurd (Subsingleton.elim i j) h
  · intro s s' h; exact h 0
  · exact ⟨fun h => (steps_iff (agrees_slice (agrees_ptr agrees_str' _) _) _ _ _).mp (h 0), fun h _ => (steps_iff (agrees_slice (agrees_ptr agrees_str' _) _) _ _ _).mpr h⟩

/-! ### Whole answers -/

theorem fold_last : ∀ (vs : List JVal) (a : Option JVal), vs.foldlM (fun (_ : Option JVal) v => some (some v)) a = some (vs.getLast?.or a)
  | [], a => rfl
  | v :: vs, a => by
    rw [List.foldlM_cons]
    show vs.foldlM _ (some v) = _
    rw [fold_last vs (some v)]
    cases vs with
    | nil => rfl
    | cons w ws => rw [List.getLast?_cons_cons]; simp [List.getLast?_cons]

theorem envelope_iff (msg : Bytes) (e : Int) (b : Option JVal) :
    (parse msg).bind (decEnvelope (0, none)) = some (e, b) ↔ Envelope msg e b := by
  have hs : Agrees decEnvelope (IntoStruct fun ms s s' => Field IntoInt ms "Error" s.1 s'.1 ∧
      s'.2 = ((vals "DirectoryResponse" ms).getLast?).or s.2) := by
    refine agrees_struct fun ms s s' => ?_
    refine (IsStruct.iff (n := 2) (F := fun i => match i with
      | 0 => ⟨"Error", fun (s : Int × Option JVal) => s.1, fun s x => (x, s.2), decInt64⟩
      | 1 => ⟨"DirectoryResponse", fun s => s.2, fun s x => (s.1, x), fun _ v => some (some v)⟩) ?_ ?_ ms s s').trans ?_
    · constructor
      · rfl
      · rw [fin2]; exact ⟨rfl, rfl⟩
      · decide +kernel
      · decide +kernel
      · rw [fin2]; exact ⟨fun _ _ => rfl, fun _ _ => rfl⟩
      · rw [fin2]; exact ⟨fun _ _ => rfl, fun _ _ => rfl⟩
      · simp only [fin2]; simp
    · intro s s'
      rw [fin2]; cases s; cases s'; simp +contextual
    · rw [fin2]
      refine and_congr (steps_iff agrees_int _ _ _) ?_
      dsimp only
      rw [fold_last, Option.some.injEq, eq_comm]
  rw [Option.bind_eq_some_iff]
  unfold Envelope
  refine exists_congr fun v => and_congr (parse_iff msg v) ?_
  rw [hs]
  unfold IntoStruct
  refine or_congr (and_congr Iff.rfl ?_) (exists_congr fun ms => and_congr Iff.rfl (and_congr Iff.rfl ?_))
  · rw [Prod.mk.injEq]
  · rw [Option.or_none]

/-- an answer is read exactly as the specification says, and anything else is malformed -/
theorem response_iff (t : Int) (ht : t = RegistrationType ∨ t = KeyLookupType ∨ t = KeyLookupInEpochType ∨ t = MonitoringType) (msg : Bytes)
    (w : WireResponse) : unmarshalResponse t msg = some w ↔
      SaysProof msg w ∨ (w = ⟨ErrMalformedMessage, .none⟩ ∧ ¬ ∃ w', SaysProof msg w') := by
  have bl : ∀ e, errorsSet e = true ↔ bodiless e := by
    intro e; simp [errorsSet, bodiless, or_assoc]
  unfold unmarshalResponse
  cases hE : (parse msg).bind (decEnvelope (0, none)) with
  | none =>
    have no : ∀ e b, ¬ Envelope msg e b := by
      intro e b h
      rw [← envelope_iff, hE] at h; exact nomatch h
    simp only [Option.some.injEq]
    constructor
    · rintro rfl
      refine .inr ⟨rfl, ?_⟩
      rintro ⟨w', e, b, h, -⟩
      exact no e b h
    · rintro (⟨e, b, h, -⟩ | ⟨rfl, -⟩)
      · exact absurd h (no e b)
      · rfl
  | some p =>
    obtain ⟨e, body⟩ := p
    have hEnv := (envelope_iff msg e body).mp hE
    have only : ∀ e' b', Envelope msg e' b' → e' = e ∧ b' = body := by
      intro e' b' h
      rw [← envelope_iff, hE] at h
      simp only [Option.some.injEq, Prod.mk.injEq] at h
      exact ⟨h.1.symm, h.2.symm⟩
    cases body with
    | none =>
      have sp : ∀ w, SaysProof msg w ↔ w = ⟨e, .none⟩ ∧ bodiless e := by
        intro w
        constructor
        · rintro ⟨e', b', h, hm⟩
          obtain ⟨rfl, rfl⟩ := only e' b' h
          exact hm
        · rintro h
          exact ⟨e, none, hEnv, h⟩
      simp only [Option.some.injEq, sp]
      by_cases hb : bodiless e
      · rw [if_pos ((bl e).mpr hb)]
        constructor
        · rintro rfl; exact .inl ⟨rfl, hb⟩
        · rintro (⟨rfl, -⟩ | ⟨-, h⟩)
          · rfl
          · exact absurd ⟨_, rfl, hb⟩ h
      · rw [if_neg (by rw [bl]; exact hb)]
        constructor
        · rintro rfl; exact .inr ⟨rfl, by rintro ⟨_, -, h⟩; exact hb h⟩
        · rintro (⟨-, h⟩ | ⟨rfl, -⟩)
          · exact absurd h hb
          · rfl
    | some v =>
      have sp : ∀ w, SaysProof msg w ↔ (v = .null ∧ w = ⟨e, .nilProof⟩) ∨ (v ≠ .null ∧ ∃ p, IntoProof ⟨[], [], none⟩ v p ∧ w = ⟨e, .proof p⟩) := by
        intro w
        constructor
        · rintro ⟨e', b', h, hm⟩
          obtain ⟨rfl, rfl⟩ := only e' b' h
          exact hm
        · rintro h
          exact ⟨e, some v, hEnv, h⟩
      have ag := agrees_ptr agrees_proof ⟨[], [], none⟩ (some ⟨[], [], none⟩) v
      simp only [sp, if_pos ht]
      unfold IntoPtr at ag
      simp only [Option.getD_some] at ag
      cases hd : decPtr ⟨[], [], none⟩ decProof (some ⟨[], [], none⟩) v with
      | none =>
        rw [hd] at ag
        simp only [Option.some.injEq]
        constructor
        · rintro rfl
          refine .inr ⟨rfl, ?_⟩
          rintro ⟨w', ⟨h, -⟩ | ⟨h, p, hp, -⟩⟩
          · exact nomatch (ag none).mpr (.inl ⟨h, rfl⟩)
          · exact nomatch (ag (some p)).mpr (.inr ⟨h, p, hp, rfl⟩)
        · rintro ((⟨h, -⟩ | ⟨h, p, hp, -⟩) | ⟨rfl, -⟩)
          · exact nomatch (ag none).mpr (.inl ⟨h, rfl⟩)
          · exact nomatch (ag (some p)).mpr (.inr ⟨h, p, hp, rfl⟩)
          · rfl
      | some o =>
        rw [hd] at ag
        rcases (ag o).mp rfl with ⟨h1, rfl⟩ | ⟨h1, p, h2, rfl⟩
        · simp only [Option.some.injEq]
          constructor
          · rintro rfl; exact .inl (.inl ⟨h1, rfl⟩)
          · rintro ((⟨-, rfl⟩ | ⟨h, -⟩) | ⟨-, h⟩)
            · rfl
            · exact absurd h1 h
            · exact absurd ⟨_, .inl ⟨h1, rfl⟩⟩ h
        · simp only [Option.some.injEq]
          constructor
          · rintro rfl; exact .inl (.inr ⟨h1, p, h2, rfl⟩)
          · rintro ((⟨h, -⟩ | ⟨-, p', h3, rfl⟩) | ⟨-, h⟩)
            · exact absurd h h1
            · have := (ag (some p')).mpr (.inr ⟨h1, p', h3, rfl⟩)
              simp only [Option.some.injEq] at this
              rw [this]
            · exact absurd ⟨_, .inr ⟨h1, p, h2, rfl⟩⟩ h

/-- the same for STR histories -/
theorem history_iff (msg : Bytes) (w : WireResponse) : unmarshalResponse STRType msg = some w ↔
      SaysHistory msg w ∨ (w = ⟨ErrMalformedMessage, .none⟩ ∧ ¬ ∃ w', SaysHistory msg w') := by
  have bl : ∀ e, errorsSet e = true ↔ bodiless e := by
    intro e; simp [errorsSet, bodiless, or_assoc]
  unfold unmarshalResponse
  cases hE : (parse msg).bind (decEnvelope (0, none)) with
  | none =>
    have no : ∀ e b, ¬ Envelope msg e b := by
      intro e b h
      rw [← envelope_iff, hE] at h; exact nomatch h
    simp only [Option.some.injEq]
    constructor
    · rintro rfl
      refine .inr ⟨rfl, ?_⟩
      rintro ⟨w', e, b, h, -⟩
      exact no e b h
    · rintro (⟨e, b, h, -⟩ | ⟨rfl, -⟩)
      · exact absurd h (no e b)
      · rfl
  | some p =>
    obtain ⟨e, body⟩ := p
    have hEnv := (envelope_iff msg e body).mp hE
    have only : ∀ e' b', Envelope msg e' b' → e' = e ∧ b' = body := by
      intro e' b' h
      rw [← envelope_iff, hE] at h
      simp only [Option.some.injEq, Prod.mk.injEq] at h
      exact ⟨h.1.symm, h.2.symm⟩
    cases body with
    | none =>
      have sp : ∀ w, SaysHistory msg w ↔ w = ⟨e, .none⟩ ∧ bodiless e := by
        intro w
        constructor
        · rintro ⟨e', b', h, hm⟩
          obtain ⟨rfl, rfl⟩ := only e' b' h
          exact hm
        · rintro h
          exact ⟨e, none, hEnv, h⟩
      simp only [Option.some.injEq, sp]
      by_cases hb : bodiless e
      · rw [if_pos ((bl e).mpr hb)]
        constructor
        · rintro rfl; exact .inl ⟨rfl, hb⟩
        · rintro (⟨rfl, -⟩ | ⟨-, h⟩)
          · rfl
          · exact absurd ⟨_, rfl, hb⟩ h
      · rw [if_neg (by rw [bl]; exact hb)]
        constructor
        · rintro rfl; exact .inr ⟨rfl, by rintro ⟨_, -, h⟩; exact hb h⟩
        · rintro (⟨-, h⟩ | ⟨rfl, -⟩)
          · exact absurd h hb
          · rfl
    | some v =>
      have sp : ∀ w, SaysHistory msg w ↔ (v = .null ∧ w = ⟨e, .nilHistory⟩) ∨ (v ≠ .null ∧ ∃ p, IntoHistory [] v p ∧ w = ⟨e, .history p⟩) := by
        intro w
        constructor
        · rintro ⟨e', b', h, hm⟩
          obtain ⟨rfl, rfl⟩ := only e' b' h
          exact hm
        · rintro h
          exact ⟨e, some v, hEnv, h⟩
      have ag := agrees_ptr agrees_history [] (some []) v
      simp only [sp, if_neg (show ¬ (STRType = RegistrationType ∨ STRType = KeyLookupType ∨ STRType = KeyLookupInEpochType ∨ STRType = MonitoringType) by decide), if_true]
      unfold IntoPtr at ag
      simp only [Option.getD_some] at ag
      cases hd : decPtr [] decHistory (some []) v with
      | none =>
        rw [hd] at ag
        simp only [Option.some.injEq]
        constructor
        · rintro rfl
          refine .inr ⟨rfl, ?_⟩
          rintro ⟨w', ⟨h, -⟩ | ⟨h, p, hp, -⟩⟩
          · exact nomatch (ag none).mpr (.inl ⟨h, rfl⟩)
          · exact nomatch (ag (some p)).mpr (.inr ⟨h, p, hp, rfl⟩)
        · rintro ((⟨h, -⟩ | ⟨h, p, hp, -⟩) | ⟨rfl, -⟩)
          · exact nomatch (ag none).mpr (.inl ⟨h, rfl⟩)
          · exact nomatch (ag (some p)).mpr (.inr ⟨h, p, hp, rfl⟩)
          · rfl
      | some o =>
        rw [hd] at ag
        rcases (ag o).mp rfl with ⟨h1, rfl⟩ | ⟨h1, p, h2, rfl⟩
        · simp only [Option.some.injEq]
          constructor
          · rintro rfl; exact .inl (.inl ⟨h1, rfl⟩)
          · rintro ((⟨-, rfl⟩ | ⟨h, -⟩) | ⟨-, h⟩)
            · rfl
            · exact absurd h1 h
            · exact absurd ⟨_, .inl ⟨h1, rfl⟩⟩ h
        · simp only [Option.some.injEq]
          constructor
          · rintro rfl; exact .inl (.inr ⟨h1, p, h2, rfl⟩)
          · rintro ((⟨h, -⟩ | ⟨-, p', h3, rfl⟩) | ⟨-, h⟩)
            · exact absurd h h1
            · have := (ag (some p')).mpr (.inr ⟨h1, p', h3, rfl⟩)
              simp only [Option.some.injEq] at this
              rw [this]
            · exact absurd ⟨_, .inr ⟨h1, p, h2, rfl⟩⟩ h

end Coniks.Json
