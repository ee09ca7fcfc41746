import Verif.Proofs.Json.ReadBack
import Verif.Proofs.Json.GrammarV
import Verif.Proofs.Wire
import Verif.Proofs.EvalDir
import Verif.Props.Session
import Verif.Props.ClientSafety
import Verif.Props.Server
/-
C61 - C63: messages between client and server as bytes.
-/
namespace Coniks.Props
open Coniks Spec Json

/-! ### C61: responses -/

/-- C61. What `MarshalResponse` writes, `UnmarshalResponse` reads back exactly, if the body belongs to the request type, the code is a 64-bit
integer and the strings in the policies of the STRs are valid UTF-8. -/
theorem C61_response_roundtrip (t : Int) (r : Response) (hs : ∀ s, some s ∈ Response.strs r → Utf8STR s)
    (he : -2 ^ 63 ≤ r.error ∧ r.error < 2 ^ 63) (hf : Response.Fits t r) :
    (unmarshalResponse t (marshalResponse r)).map WireResponse.toResponse = some r :=
  wire_roundtrip t r hs he hf

/-- a proof with a path, an STR and a promise, and with odd parts: a nil path, an empty value, no commitment -/
def sampleResponse : Response :=
  ⟨101, .proof ⟨[none, some ⟨[1, 2], [⟨List.replicate 32 255, rfl⟩], [7], [], some ⟨3, [7], some [], true, none⟩⟩],
    [some ⟨⟨[1], 5, 4, [2, 3], [9]⟩, some (newPolicies 60 [8, 8])⟩, none], some ⟨[7], [1], [2]⟩⟩⟩

example : Utf8STR ⟨⟨[1], 5, 4, [2, 3], [9]⟩, some (newPolicies 60 [8, 8])⟩ ∧ Response.Fits 0 sampleResponse ∧
    (unmarshalResponse 0 (marshalResponse sampleResponse)).map WireResponse.toResponse = some sampleResponse := by
  have hu : Utf8STR ⟨⟨[1], 5, 4, [2, 3], [9]⟩, some (newPolicies 60 [8, 8])⟩ := by
    intro p hp; cases hp; exact StdPol.utf8 ⟨rfl, rfl⟩
  have hf : Response.Fits 0 sampleResponse := by show (0 : Int) ≤ 0 ∧ (0 : Int) ≤ 3; decide
  refine ⟨hu, hf, C61_response_roundtrip 0 _ ?_ (by decide) hf⟩
  intro s hs
  simp only [Response.strs, sampleResponse, List.mem_cons, Option.some.injEq, List.not_mem_nil, reduceCtorEq, or_false] at hs
  rw [hs]; exact hu

/-- C61. Every answer of an honest directory, after any history, arrives as it was sent. -/
theorem C61_honest_answers_arrive (C : Crypto) (t0 : UInt64) (sk vk : Bytes) (size : Nat) (r₁ r₂ : Bytes) (ops : List DirOp) (d : Directory)
    (log : List STR) (h : dirAfter C t0 sk vk size r₁ r₂ ops = some (d, log)) (op : DirOp) (d' : Directory) (r : Response)
    (hr : d.step C op = some (d', some r)) :
    (unmarshalResponse (wireType op) (marshalResponse r)).map WireResponse.toResponse = some r :=
  (step_sendable (after_std h) hr).roundtrip

/-- alice registers, an epoch passes; the answers to a lookup and to a request for the history arrive -/
example : ∃ d log r₁ r₂, dirAfter Crypto.toy 5 [1] [2] 10 [3] [4] [.register (some [5]) ⟨[0x61], [9, 9]⟩, .update] = some (d, log) ∧
    d.step Crypto.toy (.keyLookup ⟨[0x61]⟩) = some (d, some r₁) ∧ r₁.error = ReqSuccess ∧
    (unmarshalResponse 1 (marshalResponse r₁)).map WireResponse.toResponse = some r₁ ∧
    d.step Crypto.toy (.getSTRHistory ⟨0, 9⟩) = some (d, some r₂) ∧
    (unmarshalResponse 5 (marshalResponse r₂)).map WireResponse.toResponse = some r₂ := by
  have key : ((dirAfter Crypto.toy 5 [1] [2] 10 [3] [4] [.register (some [5]) ⟨[0x61], [9, 9]⟩, .update]).bind fun x =>
      (x.1.keyLookup Crypto.toy ⟨[0x61]⟩).bind fun r => (x.1.getSTRHistory ⟨0, 9⟩).map fun _ => r.error) = some ReqSuccess := by
    rw [dirAfterE_eq]; decide +kernel
  obtain ⟨⟨d, log⟩, h0, key⟩ := Option.bind_eq_some_iff.mp key
  obtain ⟨r₁, h1, key⟩ := Option.bind_eq_some_iff.mp key
  obtain ⟨r₂, h2, key⟩ := Option.map_eq_some_iff.mp key
  have s1 : d.step Crypto.toy (.keyLookup ⟨[0x61]⟩) = some (d, some r₁) := by simp [Directory.step, h1]
  have s2 : d.step Crypto.toy (.getSTRHistory ⟨0, 9⟩) = some (d, some r₂) := by simp [Directory.step, h2]
  exact ⟨d, log, r₁, r₂, h0, s1, key, C61_honest_answers_arrive _ _ _ _ _ _ _ _ _ _ h0 _ _ _ s1, s2,
    C61_honest_answers_arrive _ _ _ _ _ _ _ _ _ _ h0 _ _ _ s2⟩

/-! ### C62: requests -/

/-- C62. A registration, as the client writes it, is read by the server as the same registration, if the name is valid UTF-8. A nil key
arrives as an empty one. -/
theorem C62_registration (name : Bytes) (key : Option Bytes) (h : Utf8 name) :
    unmarshalRequest goJson (createRegistrationMsg name key) = some ⟨0, .registration ⟨name, key.getD []⟩⟩ := by
  rw [request_registration, (clean_iff name).mpr h]

/-- C62. The same for lookups, although the client marshals a registration request for them. -/
theorem C62_lookup (name : Bytes) (h : Utf8 name) :
    unmarshalRequest goJson (createKeyLookupMsg name) = some ⟨1, .keyLookup ⟨name⟩⟩ := by
  rw [request_lookup, (clean_iff name).mpr h]

/-- C62. The same for lookups in an epoch and monitoring, for every epoch. -/
theorem C62_epoch_requests (r : KeyLookupInEpochRequest) (m : MonitoringRequest) (hr : Utf8 r.username) (hm : Utf8 m.username) :
    unmarshalRequest goJson (keyLookupInEpochMsg r) = some ⟨2, .keyLookupInEpoch r⟩ ∧
    unmarshalRequest goJson (monitoringMsg m) = some ⟨3, .monitoring m⟩ := by
  rw [request_inEpoch, request_monitoring, (clean_iff _).mpr hr, (clean_iff _).mpr hm]
  exact ⟨rfl, rfl⟩

/-- C62. UTF-8 is needed, exactly: a name reaches the server unchanged if and only if it is valid UTF-8. -/
theorem C62_iff_utf8 (name : Bytes) (key : Option Bytes) :
    (∃ k, unmarshalRequest goJson (createRegistrationMsg name key) = some ⟨0, .registration ⟨name, k⟩⟩) ↔ Utf8 name := by
  constructor
  · rintro ⟨k, h⟩
    rw [request_registration] at h
    simp only [Option.some.injEq, Request.mk.injEq, Payload.registration.injEq, RegistrationRequest.mk.injEq, true_and] at h
    exact (clean_iff name).mp h.1
  · intro h; exact ⟨_, C62_registration name key h⟩

/-- alïce, with a two-byte character, a quote and a line separator -/
example : Utf8 (['a', 'l', 'ï', '"', Char.ofNat 0x2028].flatMap String.utf8EncodeChar) ∧
    unmarshalRequest goJson (createRegistrationMsg (['a', 'l', 'ï', '"', Char.ofNat 0x2028].flatMap String.utf8EncodeChar) (some [1])) =
      some ⟨0, .registration ⟨[0x61, 0x6C, 0xC3, 0xAF, 0x22, 0xE2, 0x80, 0xA8], [1]⟩⟩ :=
  ⟨⟨_, rfl⟩, (C62_registration _ _ ⟨_, rfl⟩).trans (by decide +kernel)⟩

/-- C62. Whatever bytes reach the server: a request is read exactly from a JSON object that says it (`Spec.Says`): names of fields compared
without case, the last value counts, `null` says nothing - except that a `null` request ends the reading of the content. -/
theorem C62_reads (msg : Bytes) (req : Request) : unmarshalRequest goJson msg = some req ↔ ∃ ms, JsonText msg (.obj ms) ∧ Says ms req := by
  simp only [← parse_iff]; exact request_iff msg req

/-- a message with two types, two names and a request after a `null` -/
theorem sampleRead : unmarshalRequest goJson (ascii
    "{\"Type\":0,\"type\":1,\"Request\":{\"Username\":\"a\",\"USERNAME\":\"b\"},\"Type\":null,\"Request\":null,\"Request\":{\"Username\":\"c\"}}") =
    some ⟨1, .keyLookup ⟨[0x62]⟩⟩ := by decide +kernel

example : ∃ ms, JsonText (ascii
    "{\"Type\":0,\"type\":1,\"Request\":{\"Username\":\"a\",\"USERNAME\":\"b\"},\"Type\":null,\"Request\":null,\"Request\":{\"Username\":\"c\"}}")
    (.obj ms) ∧ Says ms ⟨1, .keyLookup ⟨[0x62]⟩⟩ := (C62_reads _ _).mp sampleRead

/-- C62. What the decoders of numbers and of base64 text accept and return, exactly. -/
theorem C62_texts (s b : Bytes) (n : Int) (bound m : Nat) :
    (b64Dec s = some b ↔ Base64 s b) ∧ (parseInt s = some n ↔ IntText s n) ∧ (parseUint bound s = some m ↔ NatText bound s m) :=
  ⟨b64Dec_iff s b, parseInt_iff s n, parseUint_iff bound s m⟩

/-- "YWI=", also over two lines; the greatest and the least `int`; a number that is too big -/
example : Base64 (ascii "YWI=") [0x61, 0x62] ∧ Base64 (ascii "YW" ++ [10] ++ ascii "J=") [0x61, 0x62] ∧ IntText (ascii "-9223372036854775808") (-2 ^ 63) ∧
    ¬ NatText 256 (ascii "256") 256 := by
  refine ⟨(b64Dec_iff _ _).mp (by decide +kernel), (b64Dec_iff _ _).mp (by decide +kernel), (parseInt_iff _ _).mp (by decide +kernel), ?_⟩
  intro h; exact absurd h.2.2 (by decide)

/-- C61. The status codes, which the two sides compare as numbers, are different from each other (protocol/error.go). -/
theorem C61_codes : [ReqSuccess, ReqNameExisted, ReqNameNotFound, ReqUnknownDirectory, ErrDirectory, ErrAuditLog, ErrMalformedMessage] =
      (List.range 7).map (fun i : Nat => (100 + i : Int)) ∧
    [CheckBadSignature, CheckBadVRFProof, CheckBindingsDiffer, CheckBadCommitment, CheckBadLookupIndex, CheckBadAuthPath, CheckBadSTR,
      CheckBadPromise, CheckBrokenPromise] = (List.range 9).map (fun i : Nat => (200 + i : Int)) := by decide

/-- C62. Two users whose names are different but not valid UTF-8 send the very same message: to the server they are one. -/
theorem C62_names_collide_counterexample :
    createRegistrationMsg [0x61, 0xFF] (some [1]) = createRegistrationMsg [0x61, 0xFE] (some [1]) ∧
    createKeyLookupMsg [0x61, 0xFF] = createKeyLookupMsg [0x61, 0xFE] := by decide +kernel

/-- C62. A whole session over the network (JSON both ways, the server's `acceptClient`, the client's reader) is the session of direct calls,
if the names are valid UTF-8, the address allows lookups and registrations, and no message exceeds 8192 bytes. -/
theorem C62_session (C : Crypto) (t0 : UInt64) (sk vk : Bytes) (size : Nat) (r₁ r₂ : Bytes) (pre : List DirOp) (ops : List SesOp)
    (d₀ : Directory) (log₀ : List STR) (h₀ : dirAfter C t0 sk vk size r₁ r₂ pre = some (d₀, log₀)) (cc : Client)
    (addrs : List Address) (a : Address) (ha : a ∈ addrs) (hreg : a.allowRegistration = true) (hnd : (addrs.map Address.ptr).Nodup)
    (hn : ∀ n ∈ ownNames ops, Utf8 n) (hf : AllFit C d₀ ops = true) :
    runWireSession C (permsMap addrs) a.ptr d₀ cc ops = runSession C d₀ cc ops :=
  wire_session ((C46_permissions addrs hnd a.ptr 0).mpr ⟨a, ha, rfl, .inr (.inr (.inr ⟨rfl, hreg⟩))⟩)
    ((C46_permissions addrs hnd a.ptr 1).mpr ⟨a, ha, rfl, .inl rfl⟩) ops d₀ cc (after_std h₀) hn hf

/-- C62. So an honest server and a client that keeps up agree over the network as well: C33 with bytes in between. PARTIAL, as C33: indices
spread over the first 248 bits, names with a verifiable VRF proof. -/
theorem C62_honest_session_partial (C : Crypto) (t0 : UInt64) (sk vk : Bytes) (size : Nat) (r₁ r₂ : Bytes) (pre : List DirOp) (ops : List SesOp)
    (hlt : dirUpdates (pre ++ ops.map SesOp.dirOp) < 2 ^ 64)
    (spread : IndexSpread (fun k => (C.vrfProve vk k).1) (regNames pre ++ sesNames ops))
    (hus : ∀ n ∈ ownNames ops, C.vrfUsable n = true)
    (hk : KeepsUp 0 (absAfter pre) ops)
    (d₀ : Directory) (log₀ : List STR) (h₀ : dirAfter C t0 sk vk size r₁ r₂ pre = some (d₀, log₀))
    (cc : Client) (hcc : newClient d₀.latestSTR true (C.signPub sk) = some cc)
    (d : Directory) (log : List STR) (h : dirAfter C t0 sk vk size r₁ r₂ (pre ++ ops.map SesOp.dirOp) = some (d, log))
    (addrs : List Address) (a : Address) (ha : a ∈ addrs) (hreg : a.allowRegistration = true) (hnd : (addrs.map Address.ptr).Nodup)
    (hn : ∀ n ∈ ownNames ops, Utf8 n) (hf : AllFit C d₀ ops = true) :
    ∃ cc', runWireSession C (permsMap addrs) a.ptr d₀ cc ops = some (d, cc', verdicts (absAfter pre) ops) := by
  rw [C62_session C t0 sk vk size r₁ r₂ pre ops d₀ log₀ h₀ cc addrs a ha hreg hnd hn hf]
  exact C33_session C t0 sk vk size r₁ r₂ pre ops hlt spread hus hk d₀ log₀ h₀ cc hcc d log h

/-- our client registers alice, an epoch passes, it looks her up with the right key and with a wrong one -/
def wireOps : List SesOp := [.register (some [7]) [0x61] [9, 9], .dir .update, .lookup [0x61] (some [9, 9]), .lookup [0x61] (some [1])]

example : ∃ d₀ log₀ cc d cc', dirAfter Crypto.toy 5 [1] [2] 10 [3] [4] [.update] = some (d₀, log₀) ∧
    newClient d₀.latestSTR true (Crypto.toy.signPub [1]) = some cc ∧
    runWireSession Crypto.toy (permsMap [⟨7, true⟩]) 7 d₀ cc wireOps = some (d, cc', [none, none, some CheckBindingsDiffer]) := by
  have hrun : (dirAfter Crypto.toy 5 [1] [2] 10 [3] [4] ([.update] ++ wireOps.map SesOp.dirOp)).isSome = true := by
    rw [dirAfterE_eq]; decide +kernel
  obtain ⟨⟨d, log⟩, hd⟩ := Option.isSome_iff_exists.mp hrun
  have hd' := hd
  rw [dirAfter_append] at hd'
  obtain ⟨⟨d₀, log₀⟩, h₀, _⟩ := Option.bind_eq_some_iff.mp hd'
  have hfit : ((dirAfter Crypto.toy 5 [1] [2] 10 [3] [4] [.update]).map fun x => AllFit Crypto.toy x.1 wireOps) = some true := by
    rw [dirAfterE_eq]; simp only [wireOps, AllFit, SesOp.dirOp, stepE_eq]; decide +kernel
  rw [h₀] at hfit
  obtain ⟨cc', h⟩ := C62_honest_session_partial Crypto.toy 5 [1] [2] 10 [3] [4] [.update] wireOps (by decide) (by decide +kernel) (fun _ _ => rfl)
    (by decide +kernel) d₀ log₀ h₀ _ rfl d log hd [⟨7, true⟩] ⟨7, true⟩ (by simp) rfl (by decide)
    (by
      intro n hn
      simp only [wireOps, ownNames, List.mem_cons, List.not_mem_nil, or_false, or_self] at hn
      rw [hn]; exact ⟨['a'], rfl⟩)
    (by simpa using hfit)
  rw [show verdicts (absAfter [.update]) wireOps = [none, none, some CheckBindingsDiffer] by decide +kernel] at h
  exact ⟨d₀, log₀, _, d, cc', h₀, rfl, h⟩

/-! ### C63: hostile and cut-off messages -/

/-- C63. A request of the client that is longer than 8192 bytes is not misread: the server sees a prefix, answers `ErrMalformedMessage` and
does nothing; the client reports `ErrMalformedMessage` and keeps its state. -/
theorem C63_long_request (C : Crypto) (perms : Nat → Int → Bool) (rnd : Option Bytes) (d : Directory) (addr : Nat) (cc : Client) (n k : Bytes)
    (key : Option Bytes) :
    (8192 < (createRegistrationMsg n (some k)).length → cc.wireRegister C perms rnd d addr n k = some (d, cc, some ErrMalformedMessage)) ∧
    (8192 < (createKeyLookupMsg n).length → cc.wireLookup C perms d addr n key = some (d, cc, some ErrMalformedMessage)) := by
  constructor
  · intro hl
    unfold Client.wireRegister
    rw [exchange_long C perms rnd d addr _ hl (request_cut RegistrationType _ (encRegistration_ok n (some k)).1 8192 hl), Option.bind_some]
    exact receive_error n (some k)
  · intro hl
    unfold Client.wireLookup
    rw [exchange_long C perms none d addr _ hl (request_cut KeyLookupType _ (encRegistration_ok n none).1 8192 hl), Option.bind_some]
    exact receive_error n key

theorem quote_length (s : Bytes) (h : ∀ b ∈ s, b = 0x61) : s.length ≤ (quote s).length := by
  have : ∀ s : Bytes, (∀ b ∈ s, b = 0x61) → s.length ≤ (escAux true 0 s).length := by
    intro s
    induction s with
    | nil => intro _; simp [escAux]
    | cons a t ih =>
      intro h
      obtain rfl := h a (by simp)
      have := ih fun b hb => h b (List.mem_cons_of_mem _ hb)
      rw [escAux, utf8Head_ascii 0x61 t (by decide)]
      simp only [List.length_append, List.length_cons]
      have : (escAscii 0x61).length = 1 := by decide
      omega
  have := this s h
  simp only [quote, List.length_cons, List.length_append]; omega

/-- a name of 9000 letters -/
example : 8192 < (createKeyLookupMsg (List.replicate 9000 0x61)).length := by
  have := quote_length (List.replicate 9000 0x61) (fun b hb => (List.mem_replicate.mp hb).2)
  rw [List.length_replicate] at this
  simp only [createKeyLookupMsg, encRequest, encRegistration, JVal.print, printMember, printMembers, List.length_cons, List.length_append]
  omega

/-- C63. An answer cut off anywhere (as the client's 8192-byte limit does) is never misread: whatever part is missing, the result is
`ErrMalformedMessage`. -/
theorem C63_cut_reply (t : Int) (r : Response) (hs : ∀ s, some s ∈ Response.strs r → Utf8STR s) (n : Nat) (hn : n < (marshalResponse r).length) :
    unmarshalResponse t ((marshalResponse r).take n) = some ⟨106, .none⟩ :=
  unmarshal_bad t _ (take_marshal r hs n hn)

/-- C63. So an honest answer of more than 8192 bytes never reaches the client: the directory has done what was asked, the client reports
`ErrMalformedMessage` and keeps its state. -/
theorem C63_long_answer (C : Crypto) (t0 : UInt64) (sk vk : Bytes) (size : Nat) (r₁ r₂ : Bytes) (ops : List DirOp) (d : Directory)
    (log : List STR) (h : dirAfter C t0 sk vk size r₁ r₂ ops = some (d, log)) (op : DirOp) (d' : Directory) (r : Response)
    (hr : d.step C op = some (d', some r)) (hl : 8192 < (marshalResponse r).length) (cc : Client) (n : Bytes) (key : Option Bytes) :
    cc.receive C (wireType op) d' (clientRead (marshalResponse r)) n key = some (d', cc, some ErrMalformedMessage) := by
  rw [receive_sendable (step_sendable (after_std h) hr), if_neg (by omega)]

/-- C63. For the five request types with a decoder `UnmarshalResponse` returns something whatever the bytes are; and a result without a body
carries one of the three codes that end the checks. -/
theorem C63_unmarshal_total (t : Int) (ht : (0 ≤ t ∧ t ≤ 3) ∨ t = 5) (msg : Bytes) : ∃ w, unmarshalResponse t msg = some w ∧
    (w.body = .none → w.error = 104 ∨ w.error = 105 ∨ w.error = 106) := by
  have h106 : (⟨ErrMalformedMessage, .none⟩ : WireResponse).error = 104 ∨ (⟨ErrMalformedMessage, .none⟩ : WireResponse).error = 105 ∨
      (⟨ErrMalformedMessage, .none⟩ : WireResponse).error = 106 := .inr (.inr rfl)
  unfold unmarshalResponse
  split
  · exact ⟨_, rfl, fun _ => h106⟩
  · refine ⟨_, rfl, fun _ => ?_⟩
    rename_i e _
    dsimp only
    split
    · rename_i he
      simp only [errorsSet, Bool.or_eq_true, beq_iff_eq, ErrMalformedMessage, ErrDirectory, ErrAuditLog] at he
      rcases he with (he | he) | he
      · exact .inr (.inr he)
      · exact .inl he
      · exact .inr (.inl he)
    · exact h106
  · split
    · split
      · exact ⟨_, rfl, fun _ => h106⟩
      · exact ⟨_, rfl, fun h => nomatch h⟩
      · exact ⟨_, rfl, fun h => nomatch h⟩
    · rename_i hne
      have h5 : t = STRType := by
        simp only [RegistrationType, KeyLookupType, KeyLookupInEpochType, MonitoringType, STRType] at hne ⊢
        omega
      rw [if_pos h5]
      split
      · exact ⟨_, rfl, fun _ => h106⟩
      · exact ⟨_, rfl, fun h => nomatch h⟩
      · exact ⟨_, rfl, fun h => nomatch h⟩

/-- half a message, an empty one, another type of value, a code out of nowhere without a body -/
example : unmarshalResponse 1 (ascii "{\"Error\":1") = some ⟨106, .none⟩ ∧ unmarshalResponse 1 [] = some ⟨106, .none⟩ ∧
    unmarshalResponse 1 (ascii "{\"Error\":\"x\"}") = some ⟨106, .none⟩ ∧ unmarshalResponse 1 (ascii " {\"error\" : 100} ") = some ⟨106, .none⟩ ∧
    unmarshalResponse 1 (ascii "{\"ERROR\":104}") = some ⟨104, .none⟩ := by decide +kernel

/-- C63. For the type of an audit request, which the protocol has, there is no decoder: `UnmarshalResponse` panics on every answer with a body. -/
theorem C63_audit_type_counterexample (r : Response) (hs : ∀ s, some s ∈ Response.strs r → Utf8STR s)
    (he : -2 ^ 63 ≤ r.error ∧ r.error < 2 ^ 63) (hb : r.resp ≠ .none) : Panics (unmarshalResponse AuditType (marshalResponse r)) := by
  unfold Panics unmarshalResponse
  rw [parse_marshal r hs he]
  obtain ⟨e, body⟩ := r
  cases body with
  | none => exact absurd rfl hb
  | _ => rfl

example : Panics (unmarshalResponse AuditType (marshalResponse ⟨100, .history [none]⟩)) :=
  C63_audit_type_counterexample _ (by intro s hs; simp [Response.strs] at hs) (by decide) (by simp)

/-- C63 is false for the client as a whole: any of these short replies, sent by the server or by anybody in between (the client does not check
the certificate), crashes a client in any state, whatever it asked: a null body, a null STR, an STR without any field. -/
theorem C63_crash_counterexample (C : Crypto) (cc : Client) (d : Directory) (t : Int) (ht : t = RegistrationType ∨ t = KeyLookupType)
    (n : Bytes) (key : Option Bytes) :
    Panics (cc.receive C t d (ascii "{\"Error\":100,\"DirectoryResponse\":null}") n key) ∧
    Panics (cc.receive C t d (ascii "{\"Error\":100,\"DirectoryResponse\":{\"AP\":[null],\"STR\":[null]}}") n key) ∧
    Panics (cc.receive C t d (ascii "{\"Error\":100,\"DirectoryResponse\":{\"AP\":[{}],\"STR\":[{}]}}") n key) := by
  have u1 : ∀ t, t = RegistrationType ∨ t = KeyLookupType →
      unmarshalResponse t (ascii "{\"Error\":100,\"DirectoryResponse\":null}") = some ⟨100, .nilProof⟩ := by
    rintro _ (rfl | rfl) <;> decide +kernel
  have u2 : ∀ t, t = RegistrationType ∨ t = KeyLookupType →
      unmarshalResponse t (ascii "{\"Error\":100,\"DirectoryResponse\":{\"AP\":[null],\"STR\":[null]}}") =
        some ⟨100, .proof ⟨[none], [none], none⟩⟩ := by
    rintro _ (rfl | rfl) <;> decide +kernel
  have u3 : ∀ t, t = RegistrationType ∨ t = KeyLookupType →
      unmarshalResponse t (ascii "{\"Error\":100,\"DirectoryResponse\":{\"AP\":[{}],\"STR\":[{}]}}") =
        some ⟨100, .proof ⟨[some ⟨[], [], [], [], none⟩], [some ⟨none, none⟩], none⟩⟩ := by
    rintro _ (rfl | rfl) <;> decide +kernel
  have hm : t = RegistrationType ∨ t = KeyLookupType ∨ t = KeyLookupInEpochType ∨ t = MonitoringType := by
    rcases ht with h | h
    · exact .inl h
    · exact .inr (.inl h)
  have he : errorsSet 100 = false := rfl
  have nilSTR : ∀ ap, cc.handleResponse C t ⟨100, .proof ⟨[ap], [none], none⟩⟩ n key = none := by
    intro ap
    have hv : Response.validate ⟨100, .proof ⟨[ap], [none], none⟩⟩ = some none := by simp [Response.validate, he]
    have hu : cc.updateSTR C t ⟨[ap], [none], none⟩ = none := by
      rcases ht with rfl | rfl <;> simp [Client.updateSTR, audit_one, AudState.checkSTRAgainstVerified]
    unfold Client.handleResponse
    rw [hv]
    dsimp only
    rw [if_pos hm]
    simp only [hu]
  unfold Panics Client.receive
  rw [u1 t ht, u2 t ht, u3 t ht]
  refine ⟨?_, ?_, ?_⟩
  · simp only [Option.bind_some, WireResponse.toResponse]
    simp [Client.handleResponse, Response.validate, he]
  · show Option.map _ (cc.handleResponse C t ⟨100, .proof ⟨[none], [none], none⟩⟩ n key) = none
    rw [nilSTR]; rfl
  · show Option.map _ (cc.handleResponse C t ⟨100, .proof ⟨[some _], [none], none⟩⟩ n key) = none
    rw [nilSTR]; rfl

/-- C63. No bytes crash the server: whatever arrives on a connection, decoded as `encoding/json` does, the honest directory survives it
(C31 for the actual decoder). -/
theorem C63_no_bytes_crash_server (C : Crypto) (t0 : UInt64) (sk vk : Bytes) (size : Nat) (r₁ r₂ : Bytes) (ops : List DirOp)
    (hlt : dirUpdates ops < 2 ^ 64) (d : Directory) (log : List STR) (h : dirAfter C t0 sk vk size r₁ r₂ ops = some (d, log))
    (perms : Nat → Int → Bool) (rnd : Option Bytes) (addr : Nat) (msg : Bytes) : ∃ x, exchange C perms rnd d addr msg = some x := by
  obtain ⟨x, hx⟩ := C31_no_bytes_crash C goJson t0 sk vk size r₁ r₂ ops hlt d log h perms addr rnd ⟨msg, false⟩
  obtain ⟨resp, hx⟩ := hx
  exact ⟨_, by unfold exchange; rw [hx]; rfl⟩

end Coniks.Props
