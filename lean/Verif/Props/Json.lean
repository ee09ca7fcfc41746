import Verif.Proofs.Json.Into
import Verif.Props.Wire
/-
C73: the reader of JSON texts accepts exactly the grammar of RFC 8259 (`Spec.JsonText`), and what each side writes is such a text.
C61 and C62, whole: what is read from arbitrary bytes (`Spec.SaysProof`, `Spec.SaysHistory`, `Spec.Says`).
-/
namespace Coniks.Props
open Coniks Spec Json

/-! ### C73: texts -/

/-- C73. A text is read as `v` if and only if the grammar gives it the meaning `v`; every other text is refused. -/
theorem C73_grammar (s : Bytes) (v : JVal) : parse s = some v ↔ JsonText s v := parse_iff s v

/-- C73. No text has two meanings. -/
theorem C73_unique (s : Bytes) (v w : JVal) (hv : JsonText s v) (hw : JsonText s w) : v = w := by
  rw [← parse_iff] at hv hw
  rw [hv] at hw
  exact Option.some.inj hw

/-- C73. It is decidable whether a text has a meaning: it is refused exactly if it has none. -/
theorem C73_refused (s : Bytes) : parse s = none ↔ ¬ ∃ v, JsonText s v := by
  simp only [← parse_iff]
  cases parse s <;> simp

mutual
/-- equality of values, for the example below -/
def sameV : JVal → JVal → Bool
  | .null, .null => true
  | .bool a, .bool b => a == b
  | .num a, .num b => a == b
  | .str a, .str b => a == b
  | .arr a, .arr b => sameL a b
  | .obj a, .obj b => sameM a b
  | _, _ => false
/-- of lists -/
def sameL : List JVal → List JVal → Bool
  | [], [] => true
  | a :: as, b :: bs => sameV a b && sameL as bs
  | _, _ => false
/-- of members -/
def sameM : List (Bytes × JVal) → List (Bytes × JVal) → Bool
  | [], [] => true
  | (k, a) :: as, (l, b) :: bs => k == l && sameV a b && sameM as bs
  | _, _ => false
end

mutual
theorem sameV_eq : ∀ a b, sameV a b = true → a = b
  | .null, b, h => by cases b <;> simp_all [sameV]
  | .bool a, b, h => by cases b <;> simp_all [sameV]
  | .num a, b, h => by cases b <;> simp_all [sameV]
  | .str a, b, h => by cases b <;> simp_all [sameV]
  | .arr a, b, h => by
    cases b with
    | arr b => rw [sameL_eq a b (by simpa only [sameV] using h)]
    | _ => simp [sameV] at h
  | .obj a, b, h => by
    cases b with
    | obj b => rw [sameM_eq a b (by simpa only [sameV] using h)]
    | _ => simp [sameV] at h
theorem sameL_eq : ∀ a b, sameL a b = true → a = b
  | [], b, h => by cases b <;> simp_all [sameL]
  | a :: as, [], h => by simp [sameL] at h
  | a :: as, b :: bs, h => by
    simp only [sameL, Bool.and_eq_true] at h
    rw [sameV_eq a b h.1, sameL_eq as bs h.2]
theorem sameM_eq : ∀ a b, sameM a b = true → a = b
  | [], b, h => by cases b <;> simp_all [sameM]
  | a :: as, [], h => by cases a; simp [sameM] at h
  | (k, a) :: as, (l, b) :: bs, h => by
    simp only [sameM, Bool.and_eq_true] at h
    rw [eq_of_beq h.1.1, sameV_eq a b h.1.2, sameM_eq as bs h.2]
end

theorem text_of (s : Bytes) (v : JVal) (h : (match parse s with | some w => sameV w v | none => false) = true) : JsonText s v := by
  rw [← parse_iff]
  split at h
  · rename_i w hw; rw [hw, sameV_eq _ _ h]
  · exact nomatch h

/-- an object with white space, escapes, a pair of surrogates (U+1F600), a lone surrogate, a byte that is no character, numbers -/
theorem sampleText : JsonText (ascii " {\"a\\n\" : [ -0.5e+3 ,\"\\ud83D\\uDe00\\uDE00x" ++ [0xFF] ++ ascii "\\/\", { } ,\ttrue], \"a\":null}\n")
    (.obj [([0x61, 0x0A], .arr [.num (ascii "-0.5e+3"),
      .str ([0xF0, 0x9F, 0x98, 0x80] ++ [0xEF, 0xBF, 0xBD] ++ [0x78] ++ [0xEF, 0xBF, 0xBD] ++ [0x2F]), .obj [], .bool true]), ([0x61], .null)]) :=
  text_of _ _ (by decide +kernel)

example : ∃ v, JsonText (ascii " {\"a\\n\" : [ -0.5e+3 ,\"\\ud83D\\uDe00\\uDE00x" ++ [0xFF] ++ ascii "\\/\", { } ,\ttrue], \"a\":null}\n") v := ⟨_, sampleText⟩

/-- texts without a meaning: a leading zero, a point without digits, a comma too many, a control character, a short escape, an open string, two
values, nothing -/
example : ∀ s ∈ [ascii "01", ascii "1.", ascii "[1,]", ascii "\"\n\"", ascii "\"\\u12G4\"", ascii "\"\\\"", ascii "{}{}", ascii " ", ascii "+1",
    ascii "{\"a\"}", ascii "{a:1}", ascii "nul"], ¬ ∃ v, JsonText s v := by
  intro s hs
  rw [← C73_refused]
  revert s
  decide +kernel

/-- C73. The messages of the client are texts with the expected meaning (a name that is not valid UTF-8 is changed: C62). -/
theorem C73_requests_written (name : Bytes) (key : Option Bytes) (h : Utf8 name) :
    JsonText (createRegistrationMsg name key) (.obj [(ascii "Type", .num (ascii "0")), (ascii "Request",
      .obj [(ascii "Username", .str name), (ascii "Key", match key with | none => .null | some k => .str (b64Enc k))])]) ∧
    JsonText (createKeyLookupMsg name) (.obj [(ascii "Type", .num (ascii "1")), (ascii "Request",
      .obj [(ascii "Username", .str name), (ascii "Key", .null)])]) := by
  rw [← parse_iff, ← parse_iff]
  have hc : ∀ (t : Int) (k : Option Bytes), parse (encRequest t (encRegistration name k)).print = some (encRequest t (encRegistration name k)) := by
    intro t k
    obtain ⟨h1, h2⟩ := encRegistration_ok name k
    obtain ⟨h3, h4⟩ := encRequest_ok t _ h1
    rw [parse_print _ h3, h4, h2, (clean_iff name).mpr h]
  refine ⟨(hc _ _).trans ?_, (hc _ _).trans ?_⟩
  · unfold encRequest encRegistration
    rw [show encInt RegistrationType = .num (ascii "0") by rfl]
    cases key <;> rfl
  · unfold encRequest encRegistration
    rw [show encInt KeyLookupType = .num (ascii "1") by rfl]
    rfl

example : Utf8 (ascii "a\"b") := ⟨['a', '"', 'b'], by decide +kernel⟩

/-- C73. Every answer of the server is a text of the grammar (the strings in the policies of its STRs are valid UTF-8, as those of `NewPolicies` are),
an object whose first member is the code. -/
theorem C73_answers_written (r : Response) (hs : ∀ s, some s ∈ Response.strs r → Utf8STR s) (he : -2 ^ 63 ≤ r.error ∧ r.error < 2 ^ 63) :
    ∃ code ms, JsonText (marshalResponse r) (.obj ((ascii "Error", .num code) :: ms)) ∧ IntText code r.error ∧
      ∀ m ∈ ms, m.1 = ascii "DirectoryResponse" := by
  obtain ⟨h1, h2⟩ := encResponse_ok r fun s h => cleanSTR_of s (hs s h)
  have h3 := parse_print _ h1
  rw [h2, parse_iff] at h3
  refine ⟨_, _, h3, (parseInt_iff _ _).mp (parseInt_decInt _ he), ?_⟩
  intro m hm
  cases hr : r.resp <;> rw [hr] at hm <;> simp_all

example : ∃ code ms, JsonText (marshalResponse sampleResponse) (.obj ((ascii "Error", .num code) :: ms)) ∧ IntText code 101 := by
  obtain ⟨code, ms, h, hc, _⟩ := C73_answers_written sampleResponse (by
    intro s hs
    simp only [sampleResponse, Response.strs, List.mem_cons, Option.some.injEq, reduceCtorEq, List.not_mem_nil, or_false] at hs
    subst hs
    intro p hp; cases hp; exact StdPol.utf8 ⟨rfl, rfl⟩) (by decide)
  exact ⟨code, ms, h, hc⟩

/-! ### C61: what the client reads from arbitrary bytes -/

/-- C61. Whatever bytes reach the client as the answer to a request of the types 0 to 3: they are read as `w` exactly if they say `w`
(`Spec.SaysProof`); bytes that say nothing are read as `ErrMalformedMessage`. -/
theorem C61_reads (t : Int) (ht : t = RegistrationType ∨ t = KeyLookupType ∨ t = KeyLookupInEpochType ∨ t = MonitoringType) (msg : Bytes)
    (w : WireResponse) :
    unmarshalResponse t msg = some w ↔ SaysProof msg w ∨ (w = ⟨ErrMalformedMessage, .none⟩ ∧ ¬ ∃ w', SaysProof msg w') :=
  response_iff t ht msg w

/-- C61. The same for the answer to a request for STRs. -/
theorem C61_history_reads (msg : Bytes) (w : WireResponse) :
    unmarshalResponse STRType msg = some w ↔ SaysHistory msg w ∨ (w = ⟨ErrMalformedMessage, .none⟩ ∧ ¬ ∃ w', SaysHistory msg w') :=
  history_iff msg w

/-- an answer of another writer: other case, other order, a field twice, an unknown field, a number with white space, a path that is `null` -/
theorem sampleAnswer : unmarshalResponse 1 (ascii
    "{ \"directoryresponse\" : {\"TB\":{\"Index\":\"AQ==\",\"x\":[{}],\"Value\":[1, 2],\"index\":\"Ag==\"},\"AP\":[null],\"STR\":[{\"Epoch\":7}]},\"ERROR\" : 101 }") =
    some ⟨101, .proof ⟨[none], [some ⟨some ⟨[], 7, 0, [], []⟩, none⟩], some ⟨[2], [1, 2], []⟩⟩⟩ := by decide +kernel

example : SaysProof (ascii
    "{ \"directoryresponse\" : {\"TB\":{\"Index\":\"AQ==\",\"x\":[{}],\"Value\":[1, 2],\"index\":\"Ag==\"},\"AP\":[null],\"STR\":[{\"Epoch\":7}]},\"ERROR\" : 101 }")
    ⟨101, .proof ⟨[none], [some ⟨some ⟨[], 7, 0, [], []⟩, none⟩], some ⟨[2], [1, 2], []⟩⟩⟩ := by
  rcases (C61_reads 1 (.inr (.inl rfl)) _ _).mp sampleAnswer with h | ⟨h, _⟩
  · exact h
  · exact nomatch h

end Coniks.Props
