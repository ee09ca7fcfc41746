import Verif.Proofs.Json.Prefix
/-
Round trips of base64 and of the message structs.
-/
namespace Coniks.Json

/-! ### base64 -/

theorem b64Val_char (n : Nat) (h : n < 64) : b64Val (b64Char n) = some n ∧ b64Char n ≠ 0x3D ∧ b64Char n ≠ 0x0A ∧
    b64Char n ≠ 0x0D ∧ b64Char n < 0x80 := by
  have : ∀ n : Fin 64, b64Val (b64Char n.val) = some n.val ∧ b64Char n.val ≠ 0x3D ∧ b64Char n.val ≠ 0x0A ∧
    b64Char n.val ≠ 0x0D ∧ b64Char n.val < 0x80 := by decide
  exact this ⟨n, h⟩

theorem b64Enc_chars : ∀ (b : Bytes), ∀ c ∈ b64Enc b, c ≠ 0x0A ∧ c ≠ 0x0D ∧ c < 0x80
  | [] => by simp [b64Enc]
  | [a] => by
    have ha := a.toNat_lt
    intro c hc
    simp only [b64Enc, List.mem_cons, List.not_mem_nil, or_false] at hc
    rcases hc with rfl | rfl | rfl | rfl
    · exact (b64Val_char _ (by omega)).2.2
    · exact (b64Val_char _ (by omega)).2.2
    · decide
    · decide
  | [a, b] => by
    have ha := a.toNat_lt
    have hb := b.toNat_lt
    intro c hc
    simp only [b64Enc, List.mem_cons, List.not_mem_nil, or_false] at hc
    rcases hc with rfl | rfl | rfl | rfl
    · exact (b64Val_char _ (by omega)).2.2
    · exact (b64Val_char _ (by omega)).2.2
    · exact (b64Val_char _ (by omega)).2.2
    · decide
  | a :: b :: d :: t => by
    have ha := a.toNat_lt
    have hb := b.toNat_lt
    have hd := d.toNat_lt
    intro c hc
    simp only [b64Enc, List.mem_cons] at hc
    rcases hc with rfl | rfl | rfl | rfl | hc
    · exact (b64Val_char _ (by omega)).2.2
    · exact (b64Val_char _ (by omega)).2.2
    · exact (b64Val_char _ (by omega)).2.2
    · exact (b64Val_char _ (by omega)).2.2
    · exact b64Enc_chars t c hc

theorem b64DecAux_enc : ∀ (b : Bytes), b64DecAux (b64Enc b) = some b
  | [] => rfl
  | [a] => by
    have ha := a.toNat_lt
    have h1 := b64Val_char (a.toNat / 4) (by omega)
    have h2 := b64Val_char (a.toNat % 4 * 16) (by omega)
    simp only [b64Enc, b64DecAux, h1.1, h2.1]
    have : a.toNat / 4 * 4 + a.toNat % 4 * 16 / 16 = a.toNat := by omega
    simp only [this, UInt8.ofNat_toNat, if_true, and_self]
  | [a, b] => by
    have ha := a.toNat_lt
    have hb := b.toNat_lt
    have h1 := b64Val_char (a.toNat / 4) (by omega)
    have h2 := b64Val_char (a.toNat % 4 * 16 + b.toNat / 16) (by omega)
    have h3 := b64Val_char (b.toNat % 16 * 4) (by omega)
    simp only [b64Enc, b64DecAux, h1.1, h2.1, h3.1, if_neg h3.2.1]
    have e1 : a.toNat / 4 * 4 + (a.toNat % 4 * 16 + b.toNat / 16) / 16 = a.toNat := by omega
    have e2 : (a.toNat % 4 * 16 + b.toNat / 16) % 16 * 16 + b.toNat % 16 * 4 / 4 = b.toNat := by omega
    simp only [e1, e2, UInt8.ofNat_toNat, if_true]
  | a :: b :: d :: t => by
    have ha := a.toNat_lt
    have hb := b.toNat_lt
    have hd := d.toNat_lt
    have h1 := b64Val_char (a.toNat / 4) (by omega)
    have h2 := b64Val_char (a.toNat % 4 * 16 + b.toNat / 16) (by omega)
    have h3 := b64Val_char (b.toNat % 16 * 4 + d.toNat / 64) (by omega)
    have h4 := b64Val_char (d.toNat % 64) (by omega)
    simp only [b64Enc, b64DecAux, h1.1, h2.1, h3.1, h4.1, if_neg h3.2.1, if_neg h4.2.1, b64DecAux_enc t, Option.map_some]
    have e1 : a.toNat / 4 * 4 + (a.toNat % 4 * 16 + b.toNat / 16) / 16 = a.toNat := by omega
    have e2 : (a.toNat % 4 * 16 + b.toNat / 16) % 16 * 16 + (b.toNat % 16 * 4 + d.toNat / 64) / 4 = b.toNat := by omega
    have e3 : (b.toNat % 16 * 4 + d.toNat / 64) % 4 * 64 + d.toNat % 64 = d.toNat := by omega
    simp only [e1, e2, e3, UInt8.ofNat_toNat]

theorem b64_roundtrip (b : Bytes) : b64Dec (b64Enc b) = some b := by
  unfold b64Dec
  rw [List.filter_eq_self.mpr, b64DecAux_enc]
  intro c hc
  have := b64Enc_chars b c hc
  simp [this.1, this.2.1]

theorem clean_b64 (b : Bytes) : clean (b64Enc b) = b64Enc b := clean_ascii _ fun c hc => (b64Enc_chars b c hc).2.2

/-! ### Basic types -/

theorem encBytes_clean (b : Bytes) : (encBytes b).cleanV = encBytes b := by simp only [encBytes, JVal.cleanV, clean_b64]
theorem encBytes_ok (b : Bytes) : (encBytes b).Ok := trivial
theorem decBytes_enc (old b : Bytes) : decBytes old (encBytes b) = some b := b64_roundtrip b

theorem encOptBytes_clean (b : Option Bytes) : (encOptBytes b).cleanV = encOptBytes b := by
  cases b with
  | none => rfl
  | some b => exact encBytes_clean b
theorem encOptBytes_ok (b : Option Bytes) : (encOptBytes b).Ok := by cases b <;> trivial
theorem decOptBytes_enc (old b : Option Bytes) : decOptBytes old (encOptBytes b) = some b := by
  cases b with
  | none => rfl
  | some b =>
    have := decBytes_enc (old.getD []) b
    simp only [encOptBytes, encBytes, decOptBytes] at this ⊢
    rw [this]; rfl
/-- nil decodes to the empty slice where the two are not told apart -/
theorem decBytes_encOpt (old : Bytes) (b : Option Bytes) : decBytes old (encOptBytes b) = some (b.getD []) := by
  cases b with
  | none => rfl
  | some b => exact decBytes_enc old b

theorem decInt_nat (n : Nat) : decInt (n : Int) = decNat n := by simp [decInt]
theorem encNat_ok (n : Nat) : (encNat n).Ok := ⟨n, (decInt_nat n).symm⟩
theorem encInt_ok (n : Int) : (encInt n).Ok := ⟨n, rfl⟩
theorem decU64_enc (old x : UInt64) : decU64 old (encNat x.toNat) = some x := by
  simp [decU64, encNat, parseUint_decNat _ _ x.toNat_lt]
theorem decU32_enc (old x : UInt32) : decU32 old (encNat x.toNat) = some x := by
  simp [decU32, encNat, parseUint_decNat _ _ x.toNat_lt]
theorem decU8_enc (old x : UInt8) : decU8 old (encNat x.toNat) = some x := by
  simp [decU8, encNat, parseUint_decNat _ _ x.toNat_lt]
theorem decInt64_enc (old n : Int) (h : -2 ^ 63 ≤ n ∧ n < 2 ^ 63) : decInt64 old (encInt n) = some n := parseInt_decInt n h

theorem cleanL_eq_map : ∀ (xs : List JVal), cleanL xs = xs.map JVal.cleanV
  | [] => rfl
  | x :: xs => by rw [cleanL, cleanL_eq_map xs]; rfl
theorem okL_iff : ∀ (xs : List JVal), OkL xs ↔ ∀ x ∈ xs, x.Ok
  | [] => by simp [OkL]
  | x :: xs => by simp [OkL, okL_iff xs]

theorem decElems_enc {α : Type} (zero : α) (dec : α → JVal → Option α) (enc : α → JVal) :
    ∀ (xs old : List α), (∀ x ∈ xs, ∀ o, dec o (enc x) = some x) → decElems zero dec old (xs.map enc) = some xs
  | [], _, _ => rfl
  | x :: xs, old, h => by
    simp only [List.map_cons, decElems]
    rw [h x (by simp), Option.bind_some, decElems_enc zero dec enc xs old.tail fun y hy => h y (List.mem_cons_of_mem _ hy)]
    rfl

/-- an encoder and a decoder that fit, with the text in between -/
structure RT {α : Type} (P : α → Prop) (enc : α → JVal) (dec : α → JVal → Option α) : Prop where
  ok : ∀ x, (enc x).Ok
  clean : ∀ x, P x → (enc x).cleanV = enc x
  dec : ∀ x, P x → ∀ old, dec old (enc x) = some x

/-- every element satisfies `P` -/
def AllP {α : Type} (P : α → Prop) (xs : List α) : Prop := ∀ x ∈ xs, P x
/-- the value, if there is one, satisfies `P` -/
def OptP {α : Type} (P : α → Prop) (x : Option α) : Prop := ∀ y, x = some y → P y

theorem RT.slice {α : Type} {P : α → Prop} {enc : α → JVal} {dec : α → JVal → Option α} (h : RT P enc dec) (zero : α) :
    RT (AllP P) (encSlice enc) (decSlice zero dec) where
  ok xs := by
    match xs with
    | [] => trivial
    | x :: xs =>
      show OkL ((x :: xs).map enc)
      rw [okL_iff]
      intro y hy
      obtain ⟨z, -, rfl⟩ := List.mem_map.mp hy
      exact h.ok z
  clean xs hx := by
    match xs with
    | [] => rfl
    | x :: xs =>
      show JVal.arr (cleanL ((x :: xs).map enc)) = JVal.arr ((x :: xs).map enc)
      rw [cleanL_eq_map, List.map_map]
      congr 1
      exact List.map_congr_left fun y hy => h.clean y (hx y hy)
  dec xs hx old := by
    match xs with
    | [] => rfl
    | x :: xs => exact decElems_enc zero dec enc (x :: xs) old fun y hy o => h.dec y (hx y hy) o

theorem RT.ptr {α : Type} {P : α → Prop} {enc : α → JVal} {dec : α → JVal → Option α} (h : RT P enc dec) (zero : α)
    (hn : ∀ x, enc x ≠ .null) : RT (OptP P) (encPtr enc) (decPtr zero dec) where
  ok x := by
    cases x with
    | none => trivial
    | some x => exact h.ok x
  clean x hx := by
    cases x with
    | none => rfl
    | some x => exact h.clean x (hx x rfl)
  dec x hx old := by
    cases x with
    | none => rfl
    | some x =>
      have hd := h.dec x (hx x rfl) (old.getD zero)
      have hnn := hn x
      show decPtr zero dec old (enc x) = some (some x)
      unfold decPtr
      split
      · rename_i e; exact absurd e hnn
      · rw [hd]; rfl

theorem rtArr32 : RT (fun _ => True) encArr32 decArr32 where
  ok x := by
    show OkL (x.1.map fun b => encNat b.toNat)
    rw [okL_iff]
    intro y hy
    obtain ⟨z, -, rfl⟩ := List.mem_map.mp hy
    exact encNat_ok _
  clean x _ := by
    show JVal.arr (cleanL (x.1.map fun b => encNat b.toNat)) = _
    rw [cleanL_eq_map, List.map_map]; rfl
  dec x _ old := by
    simp only [encArr32, decArr32]
    rw [← List.map_take, decElems_enc 0 decU8 (fun b => encNat b.toNat) (x.1.take 32) old.1 fun b _ o => decU8_enc o b]
    simp only [Option.map_some, Option.some.injEq]
    apply Subtype.ext
    show (x.1.take 32 ++ List.replicate 32 0).take 32 = x.1
    rw [List.take_of_length_le (l := x.1) (by rw [x.2]; exact Nat.le_refl _), List.take_append_of_le_length (by rw [x.2]; exact Nat.le_refl _),
      List.take_of_length_le (by rw [x.2]; exact Nat.le_refl _)]

/-! ### Structs -/

theorem decStruct_obj {σ : Type} (names : List Bytes) (f : Nat → σ → JVal → Option σ) (s : σ) (ms : List (Bytes × JVal)) :
    decStruct names f s (.obj ms) =
      ms.foldlM (memberStep names f) s := rfl

theorem foldl_cons {σ : Type} (names : List Bytes) (f : Nat → σ → JVal → Option σ) (s s' : σ) (k : Bytes) (v : JVal)
    (ms : List (Bytes × JVal)) (i : Nat) (hk : field names k = some i) (hf : f i s v = some s') :
    ((k, v) :: ms).foldlM (memberStep names f) s =
      ms.foldlM (memberStep names f) s' := by
  simp only [List.foldlM_cons, memberStep, hk, hf]
  rfl

theorem foldl_skip {σ : Type} (names : List Bytes) (f : Nat → σ → JVal → Option σ) (s : σ) (k : Bytes) (v : JVal)
    (ms : List (Bytes × JVal)) (hk : field names k = none) :
    ((k, v) :: ms).foldlM (memberStep names f) s =
      ms.foldlM (memberStep names f) s := by
  simp only [List.foldlM_cons, memberStep, hk]
  rfl

theorem cleanM_cons (k : Bytes) (v : JVal) (ms : List (Bytes × JVal)) (hk : clean k = k) :
    cleanM ((k, v) :: ms) = (k, v.cleanV) :: cleanM ms := by
  simp only [cleanM, cleanP, hk]

theorem rtCommit : RT (fun _ => True) encCommit decCommit where
  ok x := by simp only [encCommit, JVal.Ok, OkM, OkP, encBytes_ok, and_self]
  clean x _ := by
    simp only [encCommit, JVal.cleanV]
    rw [cleanM_cons _ _ _ (by decide), cleanM_cons _ _ _ (by decide), encBytes_clean, encBytes_clean]; rfl
  dec x _ old := by
    simp only [encCommit, decCommit]
    rw [decStruct_obj, foldl_cons (i := 0) (hk := by decide) (hf := by simp only [if_true, decBytes_enc, Option.map_some]; rfl),
      foldl_cons (i := 1) (hk := by decide) (hf := by
        simp only [decBytes_enc, Option.map_some, Nat.one_ne_zero, if_false]; rfl)]
    rfl

theorem rtProofNode : RT (fun _ => True) encProofNode decProofNode where
  ok x := by
    have := (rtCommit.ptr ⟨[], []⟩ (by simp [encCommit])).ok x.commitment
    simp only [encProofNode, JVal.Ok, OkM, OkP, encBytes_ok, encOptBytes_ok, encNat_ok, this, and_self]
  clean x _ := by
    have := (rtCommit.ptr ⟨[], []⟩ (by simp [encCommit])).clean x.commitment (fun _ _ => trivial)
    simp only [encProofNode, JVal.cleanV]
    rw [cleanM_cons _ _ _ (by decide), cleanM_cons _ _ _ (by decide), cleanM_cons _ _ _ (by decide), cleanM_cons _ _ _ (by decide),
      cleanM_cons _ _ _ (by decide), encBytes_clean, encOptBytes_clean, this]; rfl
  dec x _ old := by
    have := fun o => (rtCommit.ptr ⟨[], []⟩ (by simp [encCommit])).dec x.commitment (fun _ _ => trivial) o
    simp only [encProofNode, decProofNode]
    rw [decStruct_obj, foldl_cons (i := 0) (hk := by decide) (hf := by simp only [if_true, decU32_enc, Option.map_some]; rfl),
      foldl_cons (i := 1) (hk := by decide) (hf := by
        rw [if_neg (by decide), if_pos rfl, decBytes_enc]; rfl),
      foldl_cons (i := 2) (hk := by decide) (hf := by
        rw [if_neg (by decide), if_neg (by decide), if_pos rfl, decOptBytes_enc]; rfl),
      foldl_cons (i := 3) (hk := by decide) (hf := by
        rw [if_neg (by decide), if_neg (by decide), if_neg (by decide), if_pos rfl]; rfl),
      foldl_cons (i := 4) (hk := by decide) (hf := by
        rw [if_neg (by decide), if_neg (by decide), if_neg (by decide), if_neg (by decide), this]; rfl)]
    rfl

theorem rtAuthPath : RT (fun _ => True) encAuthPath decAuthPath where
  ok x := by
    have h1 := (rtProofNode.ptr ⟨0, [], none, false, none⟩ (by simp [encProofNode])).ok x.leaf
    have h2 := (rtArr32.slice zero32).ok x.prunedTree
    simp only [encAuthPath, JVal.Ok, OkM, OkP, encBytes_ok, h1, h2, and_self]
  clean x _ := by
    have h1 := (rtProofNode.ptr ⟨0, [], none, false, none⟩ (by simp [encProofNode])).clean x.leaf (fun _ _ => trivial)
    have h2 := (rtArr32.slice zero32).clean x.prunedTree (fun _ _ => trivial)
    simp only [encAuthPath, JVal.cleanV]
    rw [cleanM_cons _ _ _ (by decide), cleanM_cons _ _ _ (by decide), cleanM_cons _ _ _ (by decide), cleanM_cons _ _ _ (by decide),
      cleanM_cons _ _ _ (by decide), encBytes_clean, encBytes_clean, encBytes_clean, h1, h2]; rfl
  dec x _ old := by
    have h1 := fun o => (rtProofNode.ptr ⟨0, [], none, false, none⟩ (by simp [encProofNode])).dec x.leaf (fun _ _ => trivial) o
    have h2 := fun o => (rtArr32.slice zero32).dec x.prunedTree (fun _ _ => trivial) o
    simp only [encAuthPath, decAuthPath]
    rw [decStruct_obj, foldl_cons (i := 0) (hk := by decide) (hf := by simp only [if_true, decBytes_enc, Option.map_some]; rfl),
      foldl_cons (i := 1) (hk := by decide) (hf := by
        rw [if_neg (by decide), if_pos rfl, h2]; rfl),
      foldl_cons (i := 2) (hk := by decide) (hf := by
        rw [if_neg (by decide), if_neg (by decide), if_pos rfl, decBytes_enc]; rfl),
      foldl_cons (i := 3) (hk := by decide) (hf := by
        rw [if_neg (by decide), if_neg (by decide), if_neg (by decide), if_pos rfl, decBytes_enc]; rfl),
      foldl_cons (i := 4) (hk := by decide) (hf := by
        rw [if_neg (by decide), if_neg (by decide), if_neg (by decide), if_neg (by decide), h1]; rfl)]
    rfl

/-- the strings of the policies are valid UTF-8 -/
def CleanPol (p : Policies) : Prop := clean p.version = p.version ∧ clean p.hashID = p.hashID

theorem rtPolicies : RT CleanPol encPolicies decPolicies where
  ok x := by simp only [encPolicies, JVal.Ok, OkM, OkP, encBytes_ok, encNat_ok, and_self]
  clean x hx := by
    simp only [encPolicies, JVal.cleanV]
    rw [cleanM_cons _ _ _ (by decide), cleanM_cons _ _ _ (by decide), cleanM_cons _ _ _ (by decide), cleanM_cons _ _ _ (by decide),
      encBytes_clean]
    simp only [JVal.cleanV, hx.1, hx.2]; rfl
  dec x _ old := by
    simp only [encPolicies, decPolicies]
    rw [decStruct_obj, foldl_cons (i := 0) (hk := by decide) (hf := by simp only [if_true, decStr, Option.map_some]; rfl),
      foldl_cons (i := 1) (hk := by decide) (hf := by
        rw [if_neg (by decide), if_pos rfl]; rfl),
      foldl_cons (i := 2) (hk := by decide) (hf := by
        rw [if_neg (by decide), if_neg (by decide), if_pos rfl, decBytes_enc]; rfl),
      foldl_cons (i := 3) (hk := by decide) (hf := by
        rw [if_neg (by decide), if_neg (by decide), if_neg (by decide), decU64_enc]; rfl)]
    rfl

theorem rtTB : RT (fun _ => True) encTB decTB where
  ok x := by simp only [encTB, JVal.Ok, OkM, OkP, encBytes_ok, and_self]
  clean x _ := by
    simp only [encTB, JVal.cleanV]
    rw [cleanM_cons _ _ _ (by decide), cleanM_cons _ _ _ (by decide), cleanM_cons _ _ _ (by decide), encBytes_clean, encBytes_clean,
      encBytes_clean]; rfl
  dec x _ old := by
    simp only [encTB, decTB]
    rw [decStruct_obj, foldl_cons (i := 0) (hk := by decide) (hf := by simp only [if_true, decBytes_enc, Option.map_some]; rfl),
      foldl_cons (i := 1) (hk := by decide) (hf := by
        rw [if_neg (by decide), if_pos rfl, decBytes_enc]; rfl),
      foldl_cons (i := 2) (hk := by decide) (hf := by
        rw [if_neg (by decide), if_neg (by decide), decBytes_enc]; rfl)]
    rfl

/-- an STR whose policies' strings are valid UTF-8 -/
def CleanSTR (s : DirSTR) : Prop := OptP CleanPol s.policies

/-- an STR as the client gets it from the wire -/
def DirSTR.wire (s : DirSTR) : WireSTR := ⟨some s.core, s.policies⟩

theorem rtSTR (s : DirSTR) (hs : CleanSTR s) (old : WireSTR) :
    (encSTR s).Ok ∧ (encSTR s).cleanV = encSTR s ∧ decSTR old (encSTR s) = some (DirSTR.wire s) := by
  have p := rtPolicies.ptr ⟨[], [], [], 0⟩ (by simp [encPolicies])
  refine ⟨?_, ?_, ?_⟩
  · have := p.ok s.policies
    simp only [encSTR, JVal.Ok, OkM, OkP, encBytes_ok, encNat_ok, this, and_self]
  · have := p.clean s.policies hs
    simp only [encSTR, JVal.cleanV]
    rw [cleanM_cons _ _ _ (by decide), cleanM_cons _ _ _ (by decide), cleanM_cons _ _ _ (by decide), cleanM_cons _ _ _ (by decide),
      cleanM_cons _ _ _ (by decide), cleanM_cons _ _ _ (by decide), encBytes_clean, encBytes_clean, encBytes_clean, this]; rfl
  · have := fun o => p.dec s.policies hs o
    simp only [encSTR, decSTR]
    rw [decStruct_obj, foldl_cons (i := 0) (hk := by decide) (hf := by
        rw [if_pos (by decide)]; unfold decRoot; rw [if_pos rfl, decBytes_enc]; rfl),
      foldl_cons (i := 1) (hk := by decide) (hf := by
        rw [if_pos (by decide)]; unfold decRoot; rw [if_neg (by decide), if_pos rfl, decU64_enc]; rfl),
      foldl_cons (i := 2) (hk := by decide) (hf := by
        rw [if_pos (by decide)]; unfold decRoot; rw [if_neg (by decide), if_neg (by decide), if_pos rfl, decU64_enc]; rfl),
      foldl_cons (i := 3) (hk := by decide) (hf := by
        rw [if_pos (by decide)]; unfold decRoot
        rw [if_neg (by decide), if_neg (by decide), if_neg (by decide), if_pos rfl, decBytes_enc]; rfl),
      foldl_cons (i := 4) (hk := by decide) (hf := by
        rw [if_pos (by decide)]; unfold decRoot
        rw [if_neg (by decide), if_neg (by decide), if_neg (by decide), if_neg (by decide), decBytes_enc]; rfl),
      foldl_cons (i := 5) (hk := by decide) (hf := by rw [if_neg (by decide), this]; rfl)]
    rfl

/-! ### Responses -/

/-- lists of STR pointers -/
theorem rtSTRs (l : List (Option DirSTR)) (hl : ∀ s, some s ∈ l → CleanSTR s) (old : List (Option WireSTR)) :
    (encSlice (encPtr encSTR) l).Ok ∧ (encSlice (encPtr encSTR) l).cleanV = encSlice (encPtr encSTR) l ∧
    decSlice none (decPtr ⟨none, none⟩ decSTR) old (encSlice (encPtr encSTR) l) = some (l.map fun s => s.map DirSTR.wire) := by
  have one : ∀ s ∈ l, ∀ o : Option WireSTR, (encPtr encSTR s).Ok ∧ (encPtr encSTR s).cleanV = encPtr encSTR s ∧
      decPtr ⟨none, none⟩ decSTR o (encPtr encSTR s) = some (s.map DirSTR.wire) := by
    intro s hs o
    cases s with
    | none => exact ⟨trivial, rfl, rfl⟩
    | some s =>
      obtain ⟨h1, h2, h3⟩ := rtSTR s (hl s hs) (o.getD ⟨none, none⟩)
      refine ⟨h1, h2, ?_⟩
      show decPtr _ _ _ (encSTR s) = _
      have hd : decPtr ⟨none, none⟩ decSTR o (encSTR s) = (decSTR (o.getD ⟨none, none⟩) (encSTR s)).map some := rfl
      rw [hd, h3]; rfl
  match l with
  | [] => exact ⟨trivial, rfl, rfl⟩
  | x :: xs =>
    refine ⟨?_, ?_, ?_⟩
    · show OkL ((x :: xs).map (encPtr encSTR))
      rw [okL_iff]
      intro y hy
      obtain ⟨z, hz, rfl⟩ := List.mem_map.mp hy
      exact (one z hz none).1
    · show JVal.arr (cleanL ((x :: xs).map (encPtr encSTR))) = JVal.arr ((x :: xs).map (encPtr encSTR))
      rw [cleanL_eq_map, List.map_map]
      congr 1
      exact List.map_congr_left fun y hy => (one y hy none).2.1
    · show decElems none (decPtr ⟨none, none⟩ decSTR) old ((x :: xs).map (encPtr encSTR)) = _
      have gen : ∀ (ys : List (Option DirSTR)) (old : List (Option WireSTR)), (∀ y ∈ ys, y ∈ x :: xs) →
          decElems none (decPtr ⟨none, none⟩ decSTR) old (ys.map (encPtr encSTR)) = some (ys.map fun s => s.map DirSTR.wire) := by
        intro ys
        induction ys with
        | nil => intro _ _; rfl
        | cons y ys ih =>
          intro old hys
          simp only [List.map_cons, decElems]
          rw [(one y (hys y (by simp)) _).2.2, Option.bind_some, ih old.tail fun z hz => hys z (List.mem_cons_of_mem _ hz)]
          rfl
      exact gen (x :: xs) old fun _ h => h

/-- a proof as the client gets it from the wire -/
def wireProof (p : DirectoryProof) : WireProof := ⟨p.ap, p.str.map fun s => s.map DirSTR.wire, p.tb⟩

theorem rtProof (p : DirectoryProof) (hp : ∀ s, some s ∈ p.str → CleanSTR s) :
    (encProof p).Ok ∧ (encProof p).cleanV = encProof p ∧ decProof ⟨[], [], none⟩ (encProof p) = some (wireProof p) := by
  have hAP := (rtAuthPath.ptr ⟨[], [], [], [], none⟩ (by simp [encAuthPath])).slice none
  have a1 := hAP.ok p.ap
  have a2 := hAP.clean p.ap (fun _ _ _ _ => trivial)
  have a3 := hAP.dec p.ap (fun _ _ _ _ => trivial)
  obtain ⟨s1, s2, s3⟩ := rtSTRs p.str hp []
  match htb : p.tb with
  | none =>
    refine ⟨?_, ?_, ?_⟩
    · simp only [encProof, htb, List.append_nil, JVal.Ok, OkM, OkP, a1, s1, and_self]
    · simp only [encProof, htb, List.append_nil, JVal.cleanV]
      rw [cleanM_cons _ _ _ (by decide), cleanM_cons _ _ _ (by decide), a2, s2]; rfl
    · simp only [encProof, htb, List.append_nil, decProof]
      rw [decStruct_obj, foldl_cons (i := 0) (hk := by decide) (hf := by rw [if_pos rfl, a3]; rfl),
        foldl_cons (i := 1) (hk := by decide) (hf := by rw [if_neg (by decide), if_pos rfl, s3]; rfl)]
      simp only [wireProof, htb]; rfl
  | some tb =>
    have t1 := rtTB.ok tb
    have t2 := rtTB.clean tb trivial
    have t3 := (rtTB.ptr ⟨[], [], []⟩ (by simp [encTB])).dec (some tb) (fun _ _ => trivial)
    refine ⟨?_, ?_, ?_⟩
    · simp only [encProof, htb, List.cons_append, List.nil_append, JVal.Ok, OkM, OkP, a1, s1, t1, and_self]
    · simp only [encProof, htb, List.cons_append, List.nil_append, JVal.cleanV]
      rw [cleanM_cons _ _ _ (by decide), cleanM_cons _ _ _ (by decide), cleanM_cons _ _ _ (by decide), a2, s2, t2]; rfl
    · simp only [encProof, htb, List.cons_append, List.nil_append, decProof]
      rw [decStruct_obj, foldl_cons (i := 0) (hk := by decide) (hf := by rw [if_pos rfl, a3]; rfl),
        foldl_cons (i := 1) (hk := by decide) (hf := by rw [if_neg (by decide), if_pos rfl, s3]; rfl),
        foldl_cons (i := 2) (hk := by decide) (hf := by
          rw [if_neg (by decide), if_neg (by decide)]
          have := t3 none
          simp only [encPtr] at this
          rw [this]; rfl)]
      simp only [wireProof, htb]; rfl

theorem rtHistory (l : List (Option DirSTR)) (hl : ∀ s, some s ∈ l → CleanSTR s) :
    (encHistory l).Ok ∧ (encHistory l).cleanV = encHistory l ∧
    decHistory [] (encHistory l) = some (l.map fun s => s.map DirSTR.wire) := by
  obtain ⟨s1, s2, s3⟩ := rtSTRs l hl []
  refine ⟨?_, ?_, ?_⟩
  · simp only [encHistory, JVal.Ok, OkM, OkP, s1, and_self]
  · simp only [encHistory, JVal.cleanV]
    rw [cleanM_cons _ _ _ (by decide), s2]; rfl
  · simp only [encHistory, decHistory]
    rw [decStruct_obj, foldl_cons (i := 0) (hk := by decide) (hf := s3)]; rfl

/-- the STRs of a response -/
def respSTRs (r : Response) : List (Option DirSTR) :=
  match r.resp with
  | .proof p => p.str
  | .history l => l
  | _ => []

/-- the body as it comes out of the wire -/
def wireBody (r : Response) : WireBody :=
  match r.resp with
  | .proof p => .proof (wireProof p)
  | .history l => .history (l.map fun s => s.map DirSTR.wire)
  | .nilProof => .nilProof
  | .nilHistory => .nilHistory
  | _ => .none

theorem encResponse_ok (r : Response) (hs : ∀ s, some s ∈ respSTRs r → CleanSTR s) :
    (encResponse r).Ok ∧ (encResponse r).cleanV = encResponse r := by
  obtain ⟨e, body⟩ := r
  have hi : (encInt e).cleanV = encInt e := rfl
  cases body with
  | none =>
    simp only [encResponse, JVal.Ok, OkM, OkP, encInt_ok, and_self, JVal.cleanV, true_and]
    rw [cleanM_cons _ _ _ (by decide)]; rfl
  | proof p =>
    obtain ⟨p1, p2, p3⟩ := rtProof p hs
    simp only [encResponse, JVal.Ok, OkM, OkP, encInt_ok, and_self, JVal.cleanV, true_and, p1]
    rw [cleanM_cons _ _ _ (by decide), cleanM_cons _ _ _ (by decide), p2]; rfl
  | history l =>
    obtain ⟨p1, p2, p3⟩ := rtHistory l hs
    simp only [encResponse, JVal.Ok, OkM, OkP, encInt_ok, and_self, JVal.cleanV, true_and, p1]
    rw [cleanM_cons _ _ _ (by decide), cleanM_cons _ _ _ (by decide), p2]; rfl
  | nilProof =>
    simp only [encResponse, JVal.Ok, OkM, OkP, encInt_ok, and_self, JVal.cleanV, true_and]
    rw [cleanM_cons _ _ _ (by decide), cleanM_cons _ _ _ (by decide)]; rfl
  | nilHistory =>
    simp only [encResponse, JVal.Ok, OkM, OkP, encInt_ok, and_self, JVal.cleanV, true_and]
    rw [cleanM_cons _ _ _ (by decide), cleanM_cons _ _ _ (by decide)]; rfl
  | other =>
    simp only [encResponse, JVal.Ok, OkM, OkP, encInt_ok, and_self, JVal.cleanV, true_and]
    rw [cleanM_cons _ _ _ (by decide), cleanM_cons _ _ _ (by decide)]; rfl

/-- the raw body that `MarshalResponse` writes -/
def rawBody (r : Response) : Option JVal :=
  match r.resp with
  | .none => none
  | .proof p => some (encProof p)
  | .history l => some (encHistory l)
  | _ => some .null

theorem decEnvelope_enc (r : Response) (he : -2 ^ 63 ≤ r.error ∧ r.error < 2 ^ 63) :
    decEnvelope (0, none) (encResponse r) = some (r.error, rawBody r) := by
  obtain ⟨e, body⟩ := r
  simp only [encResponse, decEnvelope]
  rw [decStruct_obj, foldl_cons (i := 0) (hk := by decide) (hf := by rw [if_pos rfl, decInt64_enc _ _ he]; rfl)]
  cases body
  case none => rfl
  all_goals
    rw [foldl_cons (i := 1) (hk := by decide) (hf := by rw [if_neg (by decide)])]
    rfl

/-! ### Requests -/

theorem encRegistration_ok (name : Bytes) (key : Option Bytes) :
    (encRegistration name key).Ok ∧ (encRegistration name key).cleanV = encRegistration (clean name) key := by
  constructor
  · simp only [encRegistration, JVal.Ok, OkM, OkP, encOptBytes_ok, and_self]
  · simp only [encRegistration, JVal.cleanV]
    rw [cleanM_cons _ _ _ (by decide), cleanM_cons _ _ _ (by decide), encOptBytes_clean]; rfl

theorem decReqState_enc (t : Int) (ht : -2 ^ 63 ≤ t ∧ t < 2 ^ 63) (v : JVal) (hv : v ≠ .null) :
    decReqState ⟨0, none, true⟩ (encRequest t v) = some ⟨t, some v, true⟩ := by
  simp only [encRequest, decReqState]
  rw [decStruct_obj, foldl_cons (i := 0) (hk := by decide) (hf := by rw [if_pos rfl, decInt64_enc _ _ ht]; rfl),
    foldl_cons (i := 1) (hk := by decide) (s' := ⟨t, some v, true⟩) (hf := by
      rw [if_neg (by decide)]
      cases v <;> first | exact absurd rfl hv | rfl)]
  rfl

theorem encRequest_ok (t : Int) (v : JVal) (hv : v.Ok) :
    (encRequest t v).Ok ∧ (encRequest t v).cleanV = encRequest t v.cleanV := by
  constructor
  · simp only [encRequest, JVal.Ok, OkM, OkP, encInt_ok, hv, and_self]
  · simp only [encRequest, JVal.cleanV]
    rw [cleanM_cons _ _ _ (by decide), cleanM_cons _ _ _ (by decide)]; rfl

theorem envelope_enc (t : Int) (ht : -2 ^ 63 ≤ t ∧ t < 2 ^ 63) (v : JVal) (hv : v.Ok) (hn : v.cleanV ≠ .null) :
    goJson.envelope (encRequest t v).print = some (t, some v.cleanV) := by
  obtain ⟨h1, h2⟩ := encRequest_ok t v hv
  show ((parse (encRequest t v).print).bind (decReqState ⟨0, none, true⟩)).map (fun r => (r.type, r.content)) = _
  rw [parse_print _ h1, h2, Option.bind_some, decReqState_enc t ht _ hn]; rfl

theorem decRegistration_enc (name : Bytes) (key : Option Bytes) :
    decRegistration ⟨[], []⟩ (encRegistration name key) = some ⟨name, key.getD []⟩ := by
  simp only [encRegistration, decRegistration]
  rw [decStruct_obj, foldl_cons (i := 0) (hk := by decide) (hf := by rw [if_pos rfl]; rfl),
    foldl_cons (i := 1) (hk := by decide) (hf := by rw [if_neg (by decide), if_pos rfl, decBytes_encOpt]; rfl)]
  rfl

theorem field_username : field [ascii "Username"] (ascii "Username") = some 0 := by decide
theorem field_username_key : field [ascii "Username"] (ascii "Key") = none := by decide +kernel

theorem decKeyLookup_enc (name : Bytes) (key : Option Bytes) :
    decKeyLookup ⟨[]⟩ (encRegistration name key) = some ⟨name⟩ := by
  unfold encRegistration decKeyLookup
  rw [decStruct_obj, foldl_cons (hk := field_username) (s' := ⟨name⟩) (hf := by simp only [decStr, Option.map_some])]
  rw [foldl_skip (hk := field_username_key)]
  exact rfl

end Coniks.Json
