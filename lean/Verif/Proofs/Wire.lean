import Verif.Model.Wire
import Verif.Spec.Wire
import Verif.Proofs.Json.Utf8
import Verif.Proofs.DirReads
import Verif.Proofs.Server
/-
The answers of a directory survive the wire; messages that are cut off are rejected.
-/
namespace Coniks
open Json Spec

/-! ### Responses through the wire -/

theorem toDir_wire (s : Option DirSTR) : (s.map DirSTR.wire).bind WireSTR.toDir = s := by
  cases s <;> rfl

theorem strs_wire (l : List (Option DirSTR)) : (l.map fun s => s.map DirSTR.wire).map (fun s => s.bind WireSTR.toDir) = l := by
  rw [List.map_map]
  conv => rhs; rw [← List.map_id l]
  exact List.map_congr_left fun s _ => toDir_wire s

theorem decPtr_some {α : Type} (zero : α) (dec : α → JVal → Option α) (old : Option α) (v : JVal) (x : α) (hv : v ≠ .null)
    (h : dec (old.getD zero) v = some x) : decPtr zero dec old v = some (some x) := by
  unfold decPtr
  split
  · exact absurd rfl hv
  · rw [h]; rfl

theorem cleanSTR_of (s : DirSTR) (h : Utf8STR s) : CleanSTR s :=
  fun p hp => ⟨(clean_iff _).mpr (h p hp).1, (clean_iff _).mpr (h p hp).2⟩

theorem respSTRs_eq (r : Response) : respSTRs r = Response.strs r := rfl

theorem parse_marshal (r : Response) (hs : ∀ s, some s ∈ Response.strs r → Utf8STR s) (he : -2 ^ 63 ≤ r.error ∧ r.error < 2 ^ 63) :
    (parse (marshalResponse r)).bind (decEnvelope (0, none)) = some (r.error, rawBody r) := by
  obtain ⟨h1, h2⟩ := encResponse_ok r (fun s h => cleanSTR_of s (hs s h))
  unfold marshalResponse
  rw [parse_print _ h1, h2, Option.bind_some, decEnvelope_enc r he]

theorem encProof_ne (p : DirectoryProof) : encProof p ≠ .null := by simp [encProof]
theorem encHistory_ne (l : List (Option DirSTR)) : encHistory l ≠ .null := by simp [encHistory]

theorem wire_roundtrip (t : Int) (r : Response) (hs : ∀ s, some s ∈ Response.strs r → Utf8STR s)
    (he : -2 ^ 63 ≤ r.error ∧ r.error < 2 ^ 63) (hf : Response.Fits t r) :
    (unmarshalResponse t (marshalResponse r)).map WireResponse.toResponse = some r := by
  have hp := parse_marshal r hs he
  have hc := fun s h => cleanSTR_of s (hs s h)
  unfold unmarshalResponse
  rw [hp]
  obtain ⟨e, body⟩ := r
  cases body with
  | none =>
    have : errorsSet e = true := by
      simp only [Response.Fits] at hf
      rcases hf with rfl | rfl | rfl <;> decide
    simp only [rawBody, this, if_true, Option.map_some, WireResponse.toResponse]
  | proof p =>
    simp only [Response.Fits] at hf
    obtain ⟨-, -, h3⟩ := rtProof p hc
    have ht : t = RegistrationType ∨ t = KeyLookupType ∨ t = KeyLookupInEpochType ∨ t = MonitoringType := by
      simp only [RegistrationType, KeyLookupType, KeyLookupInEpochType, MonitoringType]; omega
    simp only [rawBody]
    rw [if_pos ht, decPtr_some _ _ _ _ _ (encProof_ne p) h3]
    simp only [Option.map_some, WireResponse.toResponse, wireProof, strs_wire]
  | history l =>
    simp only [Response.Fits] at hf
    obtain ⟨-, -, h3⟩ := rtHistory l hc
    have ht : ¬(t = RegistrationType ∨ t = KeyLookupType ∨ t = KeyLookupInEpochType ∨ t = MonitoringType) := by
      simp only [RegistrationType, KeyLookupType, KeyLookupInEpochType, MonitoringType]; omega
    simp only [rawBody]
    rw [if_neg ht, if_pos (by simpa [STRType] using hf), decPtr_some _ _ _ _ _ (encHistory_ne l) h3]
    simp only [Option.map_some, WireResponse.toResponse, strs_wire]
  | nilProof => exact hf.elim
  | nilHistory => exact hf.elim
  | other => exact hf.elim

/-! ### What an honest directory answers -/

/-- policies as `NewPolicies` makes them -/
def StdPol (p : Policies) : Prop := p.version = versionString ∧ p.hashID = hashIDString

theorem utf8_ascii : ∀ (s : Bytes), (∀ b ∈ s, b < 0x80) → Utf8 s := fun s h => (clean_iff s).mp (clean_ascii s h)

theorem StdPol.utf8 {p : Policies} (h : StdPol p) : Utf8 p.version ∧ Utf8 p.hashID := by
  rw [h.1, h.2]
  exact ⟨utf8_ascii _ (by decide), utf8_ascii _ (by decide)⟩

/-- all the policies a directory holds are its own -/
structure StdDir (d : Directory) : Prop where
  cur : StdPol d.policies
  next : StdPol d.pad.ad
  latest : StdPol d.pad.latest.ad
  snaps : ∀ e s, d.pad.snapshots e = some s → StdPol s.ad

theorem StdDir.getSTR {d : Directory} (h : StdDir d) (e : UInt64) (s : STR) (hs : d.pad.getSTR e = some s) : StdPol s.ad := by
  unfold PAD.getSTR at hs
  split at hs
  · cases hs; exact h.latest
  · exact h.snaps e s hs

theorem register_std {C : Crypto} {d d' : Directory} {rnd : Option Bytes} {req : RegistrationRequest} {resp : Response}
    (i : StdDir d) (h : d.register C rnd req = some (d', resp)) : StdDir d' := by
  have hset : ∀ {x p ok}, d.pad.set C rnd req.username x = some (p, ok) → p.ad = d.pad.ad ∧ p.latest = d.pad.latest ∧
      p.snapshots = d.pad.snapshots := by
    intro x p ok hp
    obtain ⟨⟨t, o⟩, _, e⟩ := Option.map_eq_some_iff.mp hp
    simp only [Prod.mk.injEq] at e
    rw [← e.1]; exact ⟨rfl, rfl, rfl⟩
  have fin : ∀ {x p ok} (tbs : Bytes → Option TB), d.pad.set C rnd req.username x = some (p, ok) → StdDir { d with pad := p, tbs := tbs } := by
    intro x p ok tbs hp
    obtain ⟨a, b, c⟩ := hset hp
    exact ⟨i.cur, by rw [a]; exact i.next, by rw [b]; exact i.latest, by rw [c]; exact i.snaps⟩
  unfold Directory.register at h
  split at h
  · cases h; exact i
  · split at h
    · cases h
    · cases h; exact i
    · split at h
      · cases h
      · cases h; exact i
      · split at h
        · cases h; exact i
        · simp only at h
          split at h
          · cases h
          · next hs => cases h; exact fin _ hs
          · next hs => cases h; exact fin _ hs

theorem step_std {C : Crypto} {d d' : Directory} {op : DirOp} {r : Option Response} (i : StdDir d) (h : d.step C op = some (d', r)) :
    StdDir d' := by
  have same : ∀ {x : Go Response}, (x.map fun r => (d, some r)) = some (d', r) → d' = d := by
    intro x hx
    obtain ⟨y, _, hy⟩ := Option.map_eq_some_iff.mp hx
    exact (congrArg Prod.fst hy).symm
  cases op with
  | register rnd req =>
    obtain ⟨⟨d2, r2⟩, h1, h2⟩ := Option.map_eq_some_iff.mp h
    simp only [Prod.mk.injEq] at h2
    rw [← h2.1]; exact register_std i h1
  | keyLookup req => rw [same h]; exact i
  | keyLookupInEpoch req => rw [same h]; exact i
  | monitor req => rw [same h]; exact i
  | getSTRHistory req => rw [same h]; exact i
  | setPolicies t =>
    simp only [Directory.step, Option.some.injEq, Prod.mk.injEq] at h
    rw [← h.1]
    exact ⟨⟨rfl, rfl⟩, i.next, i.latest, i.snaps⟩
  | update =>
    simp only [Directory.step, Option.some.injEq, Prod.mk.injEq] at h
    rw [← h.1]
    have hev : d.pad.evict.ad = d.pad.ad ∧ ∀ e s, d.pad.evict.snapshots e = some s → d.pad.snapshots e = some s := by
      unfold PAD.evict
      split
      · refine ⟨rfl, fun e s he => ?_⟩
        simp only at he
        split at he
        · exact nomatch he
        · exact he
      · exact ⟨rfl, fun _ _ h => h⟩
    refine ⟨i.cur, i.cur, ?_, ?_⟩
    · show StdPol d.pad.evict.ad
      rw [hev.1]; exact i.next
    · intro e s hs
      simp only [Directory.update, PAD.update, PAD.updateInternal] at hs
      split at hs
      · cases hs
        show StdPol d.pad.evict.ad
        rw [hev.1]; exact i.next
      · exact i.snaps e s (hev.2 e s hs)

theorem run_std {C : Crypto} : ∀ (ops : List DirOp) (d d' : Directory) (log log' : List STR), StdDir d →
    d.runLog C log ops = some (d', log') → StdDir d'
  | [], _, _, _, _, i, h => by cases h; exact i
  | op :: ops, d, d', log, log', i, h => by
    obtain ⟨x, h1, h2⟩ := Option.bind_eq_some_iff.mp h
    exact run_std ops _ _ _ _ (step_std i h1) h2

theorem new_std {C : Crypto} {t0 : UInt64} {sk vk : Bytes} {size : Nat} {r₁ r₂ : Bytes} {d : Directory}
    (h : newDirectory C t0 vk sk size true (some r₁) (some r₂) = some d) : StdDir d := by
  unfold newDirectory newPAD at h
  simp only [if_true] at h
  split at h
  · rename_i p hp
    cases h
    split at hp
    · exact nomatch hp
    · split at hp
      · exact nomatch hp
      · cases hp
        refine ⟨⟨rfl, rfl⟩, ⟨rfl, rfl⟩, ⟨rfl, rfl⟩, ?_⟩
        intro e s hs
        simp only [PAD.updateInternal] at hs
        split at hs
        · cases hs; exact ⟨rfl, rfl⟩
        · exact nomatch hs
  · exact nomatch h

theorem after_std {C : Crypto} {t0 : UInt64} {sk vk : Bytes} {size : Nat} {r₁ r₂ : Bytes} {ops : List DirOp} {d : Directory} {log : List STR}
    (h : dirAfter C t0 sk vk size r₁ r₂ ops = some (d, log)) : StdDir d := by
  unfold dirAfter at h
  obtain ⟨d0, h0, h1⟩ := Option.bind_eq_some_iff.mp h
  exact run_std ops d0 d _ _ (new_std h0) h1

/-- the answer can be sent: right form, valid strings, small code -/
structure Sendable (t : Int) (r : Response) : Prop where
  fits : Response.Fits t r
  strs : ∀ s, some s ∈ Response.strs r → Utf8STR s
  code : 100 ≤ r.error ∧ r.error ≤ 106

theorem sendable_error (t : Int) (e : ErrorCode) (h : e = ErrMalformedMessage ∨ e = ErrDirectory) : Sendable t (newErrorResponse e) := by
  rcases h with rfl | rfl
  · exact ⟨Or.inr (Or.inr rfl), by intro s hs; simp [Response.strs, newErrorResponse] at hs, by decide⟩
  · exact ⟨Or.inl rfl, by intro s hs; simp [Response.strs, newErrorResponse] at hs, by decide⟩

theorem StdDir.latestSTR {d : Directory} (i : StdDir d) : Utf8STR d.latestSTR := by
  intro p hp
  cases hp
  exact i.latest.utf8

theorem sendable_single {d : Directory} (i : StdDir d) (t : Int) (ht : 0 ≤ t ∧ t ≤ 3) (ap : AuthPath) (tb : Option TB) (e : ErrorCode)
    (he : 100 ≤ e ∧ e ≤ 106) : Sendable t (newSingleProof ap d.latestSTR tb e) := by
  refine ⟨ht, ?_, he⟩
  intro s hs
  simp only [Response.strs, newSingleProof, List.mem_singleton, Option.some.injEq] at hs
  rw [hs]; exact i.latestSTR

theorem collect_std {d : Directory} (i : StdDir d) : ∀ (eps : List UInt64) (l : List DirSTR), d.collectSTRs eps = some l →
    ∀ s ∈ l, Utf8STR s
  | [], l, h => by cases h; simp
  | ep :: eps, l, h => by
    unfold Directory.collectSTRs at h
    split at h
    · exact nomatch h
    · rename_i s hs
      obtain ⟨l', h1, h2⟩ := Option.map_eq_some_iff.mp h
      subst h2
      intro x hx
      rcases List.mem_cons.mp hx with rfl | hx
      · cases hg : d.pad.getSTR ep with
        | none => rw [hg] at hs; exact nomatch hs
        | some str =>
          rw [hg] at hs
          cases hs
          intro p hp
          cases hp
          exact (i.getSTR ep str hg).utf8
      · exact collect_std i eps l' h1 x hx

theorem monitor_std {C : Crypto} {d : Directory} (i : StdDir d) (n : Bytes) : ∀ (eps : List UInt64) (aps : List AuthPath) (l : List DirSTR),
    d.monitorLoop C n eps = some (some (aps, l)) → ∀ s ∈ l, Utf8STR s
  | [], _, l, h => by cases h; simp
  | ep :: eps, aps, l, h => by
    unfold Directory.monitorLoop at h
    split at h
    · exact nomatch h
    · exact nomatch h
    · split at h
      · exact nomatch h
      · rename_i s hs
        split at h
        · exact nomatch h
        · exact nomatch h
        · rename_i aps' l' h1
          cases h
          intro x hx
          rcases List.mem_cons.mp hx with rfl | hx
          · cases hg : d.pad.getSTR ep with
            | none => rw [hg] at hs; exact nomatch hs
            | some str =>
              rw [hg] at hs
              cases hs
              intro p hp
              cases hp
              exact (i.getSTR ep str hg).utf8
          · exact monitor_std i n eps aps' l' h1 x hx

theorem lookup_sendable {C : Crypto} {d : Directory} (i : StdDir d) {req : KeyLookupRequest} {r : Response}
    (h : d.keyLookup C req = some r) : Sendable 1 r := by
  unfold Directory.keyLookup at h
  split at h
  · cases h; exact sendable_error _ _ (Or.inl rfl)
  · split at h
    · cases h
    · cases h; exact sendable_error _ _ (Or.inr rfl)
    · split at h
      · cases h
      · cases h; exact sendable_single i 1 (by decide) _ _ _ (by decide)
      · split at h
        · cases h; exact sendable_single i 1 (by decide) _ _ _ (by decide)
        · cases h; exact sendable_single i 1 (by decide) _ _ _ (by decide)

theorem register_sendable {C : Crypto} {d d' : Directory} {rnd : Option Bytes} (i : StdDir d) {req : RegistrationRequest} {r : Response}
    (h : d.register C rnd req = some (d', r)) : Sendable 0 r := by
  have i' := register_std i h
  unfold Directory.register at h
  split at h
  · cases h; exact sendable_error _ _ (Or.inl rfl)
  · split at h
    · cases h
    · cases h; exact sendable_error _ _ (Or.inr rfl)
    · split at h
      · cases h
      · cases h; exact sendable_single i 0 (by decide) _ _ _ (by decide)
      · split at h
        · cases h; exact sendable_single i 0 (by decide) _ _ _ (by decide)
        · simp only at h
          split at h
          · cases h
          · cases h; exact sendable_error _ _ (Or.inr rfl)
          · cases h; exact sendable_single i' 0 (by decide) _ _ _ (by decide)

theorem inEpoch_sendable {C : Crypto} {d : Directory} (i : StdDir d) {req : KeyLookupInEpochRequest} {r : Response}
    (h : d.keyLookupInEpoch C req = some r) : Sendable 2 r := by
  unfold Directory.keyLookupInEpoch at h
  split at h
  · cases h; exact sendable_error _ _ (Or.inl rfl)
  · split at h
    · cases h
    · cases h; exact sendable_error _ _ (Or.inr rfl)
    · split at h
      · cases h
      · rename_i strs hs
        have := collect_std i _ _ hs
        have fin : ∀ ap e, 100 ≤ e ∧ e ≤ 106 → Sendable 2 (newKeyLookupInEpochProof ap strs e) := by
          intro ap e he
          refine ⟨by show (0 : Int) ≤ 2 ∧ (2 : Int) ≤ 3; decide, ?_, he⟩
          intro s hs
          simp only [Response.strs, newKeyLookupInEpochProof, List.mem_map, Option.some.injEq, exists_eq_right] at hs
          exact this s hs
        split at h
        · cases h
        · cases h; exact fin _ _ (by decide)
        · cases h; exact fin _ _ (by decide)

theorem monitor_sendable {C : Crypto} {d : Directory} (i : StdDir d) {req : MonitoringRequest} {r : Response}
    (h : d.monitor C req = some r) : Sendable 3 r := by
  unfold Directory.monitor at h
  split at h
  · cases h; exact sendable_error _ _ (Or.inl rfl)
  · dsimp only at h
    split at h
    · cases h
    · cases h; exact sendable_error _ _ (Or.inr rfl)
    · rename_i aps l hl
      cases h
      have := monitor_std i _ _ _ _ hl
      refine ⟨by show (0 : Int) ≤ 3 ∧ (3 : Int) ≤ 3; decide, ?_, by show (100 : Int) ≤ 100 ∧ (100 : Int) ≤ 106; decide⟩
      intro s hs
      simp only [Response.strs, newMonitoringProof, List.mem_map, Option.some.injEq, exists_eq_right] at hs
      exact this s hs

theorem history_sendable {d : Directory} (i : StdDir d) {req : STRHistoryRequest} {r : Response}
    (h : d.getSTRHistory req = some r) : Sendable 5 r := by
  unfold Directory.getSTRHistory at h
  split at h
  · cases h; exact sendable_error _ _ (Or.inl rfl)
  · obtain ⟨l, h1, h2⟩ := Option.map_eq_some_iff.mp h
    subst h2
    have := collect_std i _ _ h1
    refine ⟨by show (5 : Int) = 5; rfl, ?_, by show (100 : Int) ≤ 100 ∧ (100 : Int) ≤ 106; decide⟩
    intro s hs
    simp only [Response.strs, newSTRHistoryRange, List.mem_map, Option.some.injEq, exists_eq_right] at hs
    exact this s hs

theorem step_sendable {C : Crypto} {d d' : Directory} {op : DirOp} {r : Response} (i : StdDir d) (h : d.step C op = some (d', some r)) :
    Sendable (wireType op) r := by
  cases op with
  | register rnd req =>
    obtain ⟨⟨d2, r2⟩, h1, h2⟩ := Option.map_eq_some_iff.mp h
    simp only [Prod.mk.injEq, Option.some.injEq] at h2
    rw [← h2.2]; exact register_sendable i h1
  | keyLookup req =>
    obtain ⟨r2, h1, h2⟩ := Option.map_eq_some_iff.mp h
    simp only [Prod.mk.injEq, Option.some.injEq] at h2
    rw [← h2.2]; exact lookup_sendable i h1
  | keyLookupInEpoch req =>
    obtain ⟨r2, h1, h2⟩ := Option.map_eq_some_iff.mp h
    simp only [Prod.mk.injEq, Option.some.injEq] at h2
    rw [← h2.2]; exact inEpoch_sendable i h1
  | monitor req =>
    obtain ⟨r2, h1, h2⟩ := Option.map_eq_some_iff.mp h
    simp only [Prod.mk.injEq, Option.some.injEq] at h2
    rw [← h2.2]; exact monitor_sendable i h1
  | getSTRHistory req =>
    obtain ⟨r2, h1, h2⟩ := Option.map_eq_some_iff.mp h
    simp only [Prod.mk.injEq, Option.some.injEq] at h2
    rw [← h2.2]; exact history_sendable i h1
  | setPolicies t => exact nomatch h
  | update => exact nomatch h

theorem Sendable.roundtrip {t : Int} {r : Response} (h : Sendable t r) :
    (unmarshalResponse t (marshalResponse r)).map WireResponse.toResponse = some r :=
  wire_roundtrip t r h.strs (by
    have key : ∀ e : Int, 100 ≤ e → e ≤ 106 → -2 ^ 63 ≤ e ∧ e < 2 ^ 63 := by intro e; omega
    exact key r.error h.code.1 h.code.2) h.fits

/-! ### Messages that are cut off -/

theorem obj_print (ms : List (Bytes × JVal)) : ∃ t, (JVal.obj ms).print = 0x7B :: (t ++ [0x7D]) := by
  cases ms with
  | nil => exact ⟨[], rfl⟩
  | cons m ms =>
    obtain ⟨k, v⟩ := m
    have : ∀ ms, ∃ t, printMembers ms = t ++ [0x7D] := by
      intro ms
      induction ms with
      | nil => exact ⟨[], rfl⟩
      | cons m ms ih =>
        obtain ⟨t, ht⟩ := ih
        simp only [printMembers, ht]
        exact ⟨_, by rw [← List.cons_append, ← List.append_assoc]⟩
    obtain ⟨t, ht⟩ := this ms
    simp only [JVal.print, ht]
    exact ⟨_, by rw [List.append_assoc]⟩

/-- the text of an object that is cut off anywhere is not a JSON text -/
theorem parse_take (ms : List (Bytes × JVal)) (hv : (JVal.obj ms).Ok) (n : Nat) (hn : n < (JVal.obj ms).print.length) :
    parse ((JVal.obj ms).print.take n) = none := by
  obtain ⟨t, ht⟩ := obj_print ms
  have hp := parse_print _ hv
  generalize (JVal.obj ms).print = s at *
  subst ht
  cases n with
  | zero => rw [List.take_zero]; decide
  | succ n =>
    rw [List.take_succ_cons]
    have hn' : n ≤ t.length := by simp at hn; omega
    refine parse_prefix _ ((t ++ [0x7D]).drop n) (w := (JVal.obj ms).cleanV) ?_ ⟨0x7D, ?_, by decide⟩
    · rw [List.cons_append, List.take_append_drop]; exact hp
    · rw [List.drop_append_of_le_length hn']
      simp

theorem take_marshal (r : Response) (hs : ∀ s, some s ∈ Response.strs r → Utf8STR s) (n : Nat) (hn : n < (marshalResponse r).length) :
    parse ((marshalResponse r).take n) = none :=
  parse_take _ (encResponse_ok r (fun s h => cleanSTR_of s (hs s h))).1 n hn

theorem unmarshal_bad (t : Int) (msg : Bytes) (h : parse msg = none) : unmarshalResponse t msg = some ⟨ErrMalformedMessage, .none⟩ := by
  unfold unmarshalResponse
  rw [h]; rfl

theorem request_bad (msg : Bytes) (h : parse msg = none) : unmarshalRequest goJson msg = none := by
  unfold unmarshalRequest
  show (((parse msg).bind (decReqState ⟨0, none, true⟩)).map _).bind _ = none
  rw [h]; rfl

/-! ### Requests -/

/-- `UnmarshalRequest` after the envelope is decoded -/
theorem request_of (J : Json) (msg : Bytes) (t : Int) (c : J.Content) (h : J.envelope msg = some (t, c)) : unmarshalRequest J msg =
    if t = RegistrationType then (J.registration c).map fun r => ⟨t, .registration r⟩
    else if t = KeyLookupType then (J.keyLookup c).map fun r => ⟨t, .keyLookup r⟩
    else if t = KeyLookupInEpochType then (J.keyLookupInEpoch c).map fun r => ⟨t, .keyLookupInEpoch r⟩
    else if t = MonitoringType then (J.monitoring c).map fun r => ⟨t, .monitoring r⟩
    else (J.any c).map fun _ => ⟨t, .other⟩ := by
  unfold unmarshalRequest
  rw [h]; rfl

theorem request_of_reg (J : Json) (msg : Bytes) (c : J.Content) (h : J.envelope msg = some (RegistrationType, c)) :
    unmarshalRequest J msg = (J.registration c).map fun r => ⟨0, .registration r⟩ := by rw [request_of J msg _ c h]; rfl
theorem request_of_kl (J : Json) (msg : Bytes) (c : J.Content) (h : J.envelope msg = some (KeyLookupType, c)) :
    unmarshalRequest J msg = (J.keyLookup c).map fun r => ⟨1, .keyLookup r⟩ := by rw [request_of J msg _ c h]; rfl
theorem request_of_ep (J : Json) (msg : Bytes) (c : J.Content) (h : J.envelope msg = some (KeyLookupInEpochType, c)) :
    unmarshalRequest J msg = (J.keyLookupInEpoch c).map fun r => ⟨2, .keyLookupInEpoch r⟩ := by rw [request_of J msg _ c h]; rfl
theorem request_of_mon (J : Json) (msg : Bytes) (c : J.Content) (h : J.envelope msg = some (MonitoringType, c)) :
    unmarshalRequest J msg = (J.monitoring c).map fun r => ⟨3, .monitoring r⟩ := by rw [request_of J msg _ c h]; rfl

theorem goJson_reg (v : JVal) : goJson.registration (some v) = decRegistration ⟨[], []⟩ v := rfl
theorem goJson_kl (v : JVal) : goJson.keyLookup (some v) = decKeyLookup ⟨[]⟩ v := rfl
theorem goJson_ep (v : JVal) : goJson.keyLookupInEpoch (some v) = decKeyLookupInEpoch ⟨[], 0⟩ v := rfl
theorem goJson_mon (v : JVal) : goJson.monitoring (some v) = decMonitoring ⟨[], 0, 0⟩ v := rfl

theorem request_registration (name : Bytes) (key : Option Bytes) :
    unmarshalRequest goJson (createRegistrationMsg name key) = some ⟨0, .registration ⟨clean name, key.getD []⟩⟩ := by
  obtain ⟨h1, h2⟩ := encRegistration_ok name key
  have hn : (encRegistration name key).cleanV ≠ .null := by rw [h2]; exact fun h => nomatch h
  have he := envelope_enc RegistrationType (by decide) _ h1 hn
  rw [h2] at he
  have hr := request_of_reg goJson _ _ he
  rw [goJson_reg, decRegistration_enc] at hr
  exact hr

theorem request_lookup (name : Bytes) :
    unmarshalRequest goJson (createKeyLookupMsg name) = some ⟨1, .keyLookup ⟨clean name⟩⟩ := by
  obtain ⟨h1, h2⟩ := encRegistration_ok name none
  have hn : (encRegistration name none).cleanV ≠ .null := by rw [h2]; exact fun h => nomatch h
  have he := envelope_enc KeyLookupType (by decide) _ h1 hn
  rw [h2] at he
  have hr := request_of_kl goJson _ _ he
  rw [goJson_kl, decKeyLookup_enc] at hr
  exact hr

/-- the content of a lookup in an epoch -/
def encInEpoch (name : Bytes) (e : UInt64) : JVal := .obj [(ascii "Username", .str name), (ascii "Epoch", encNat e.toNat)]
/-- the content of a monitoring request -/
def encMonitor (name : Bytes) (s e : UInt64) : JVal :=
  .obj [(ascii "Username", .str name), (ascii "StartEpoch", encNat s.toNat), (ascii "EndEpoch", encNat e.toNat)]

theorem encInEpoch_ok (name : Bytes) (e : UInt64) : (encInEpoch name e).Ok ∧ (encInEpoch name e).cleanV = encInEpoch (clean name) e := by
  constructor
  · simp only [encInEpoch, JVal.Ok, OkM, OkP, encNat_ok, and_self]
  · simp only [encInEpoch, JVal.cleanV]
    rw [cleanM_cons _ _ _ (by decide), cleanM_cons _ _ _ (by decide)]; rfl

theorem encMonitor_ok (name : Bytes) (s e : UInt64) : (encMonitor name s e).Ok ∧ (encMonitor name s e).cleanV = encMonitor (clean name) s e := by
  constructor
  · simp only [encMonitor, JVal.Ok, OkM, OkP, encNat_ok, and_self]
  · simp only [encMonitor, JVal.cleanV]
    rw [cleanM_cons _ _ _ (by decide), cleanM_cons _ _ _ (by decide), cleanM_cons _ _ _ (by decide)]; rfl

theorem field_ep0 : field [ascii "Username", ascii "Epoch"] (ascii "Username") = some 0 := by decide +kernel
theorem field_ep1 : field [ascii "Username", ascii "Epoch"] (ascii "Epoch") = some 1 := by decide +kernel
theorem field_mon0 : field [ascii "Username", ascii "StartEpoch", ascii "EndEpoch"] (ascii "Username") = some 0 := by decide +kernel
theorem field_mon1 : field [ascii "Username", ascii "StartEpoch", ascii "EndEpoch"] (ascii "StartEpoch") = some 1 := by decide +kernel
theorem field_mon2 : field [ascii "Username", ascii "StartEpoch", ascii "EndEpoch"] (ascii "EndEpoch") = some 2 := by decide +kernel

theorem decInEpoch_enc (name : Bytes) (e : UInt64) : decKeyLookupInEpoch ⟨[], 0⟩ (encInEpoch name e) = some ⟨name, e⟩ := by
  unfold encInEpoch decKeyLookupInEpoch
  rw [decStruct_obj, foldl_cons (hk := field_ep0) (s' := ⟨name, 0⟩) (hf := by rw [if_pos rfl]; rfl),
    foldl_cons (hk := field_ep1) (s' := ⟨name, e⟩) (hf := by rw [if_neg (by decide), decU64_enc]; rfl)]
  rfl

theorem decMonitor_enc (name : Bytes) (s e : UInt64) : decMonitoring ⟨[], 0, 0⟩ (encMonitor name s e) = some ⟨name, s, e⟩ := by
  unfold encMonitor decMonitoring
  rw [decStruct_obj, foldl_cons (hk := field_mon0) (s' := ⟨name, 0, 0⟩) (hf := by rw [if_pos rfl]; rfl),
    foldl_cons (hk := field_mon1) (s' := ⟨name, s, 0⟩) (hf := by rw [if_neg (by decide), if_pos rfl, decU64_enc]; rfl),
    foldl_cons (hk := field_mon2) (s' := ⟨name, s, e⟩) (hf := by rw [if_neg (by decide), if_neg (by decide), decU64_enc]; rfl)]
  rfl

theorem request_inEpoch (r : KeyLookupInEpochRequest) :
    unmarshalRequest goJson (keyLookupInEpochMsg r) = some ⟨2, .keyLookupInEpoch ⟨clean r.username, r.epoch⟩⟩ := by
  obtain ⟨h1, h2⟩ := encInEpoch_ok r.username r.epoch
  have hn : (encInEpoch r.username r.epoch).cleanV ≠ .null := by rw [h2]; exact fun h => nomatch h
  have he := envelope_enc KeyLookupInEpochType (by decide) _ h1 hn
  rw [h2] at he
  have hr := request_of_ep goJson _ _ he
  rw [goJson_ep, decInEpoch_enc] at hr
  exact hr

theorem request_monitoring (r : MonitoringRequest) :
    unmarshalRequest goJson (monitoringMsg r) = some ⟨3, .monitoring ⟨clean r.username, r.startEpoch, r.endEpoch⟩⟩ := by
  obtain ⟨h1, h2⟩ := encMonitor_ok r.username r.startEpoch r.endEpoch
  have hn : (encMonitor r.username r.startEpoch r.endEpoch).cleanV ≠ .null := by rw [h2]; exact fun h => nomatch h
  have he := envelope_enc MonitoringType (by decide) _ h1 hn
  rw [h2] at he
  have hr := request_of_mon goJson _ _ he
  rw [goJson_mon, decMonitor_enc] at hr
  exact hr

theorem request_cut (t : Int) (v : JVal) (hv : v.Ok) (n : Nat) (hn : n < (encRequest t v).print.length) :
    unmarshalRequest goJson ((encRequest t v).print.take n) = none :=
  request_bad _ (parse_take _ (encRequest_ok t v hv).1 n hn)

/-! ### One exchange -/

theorem read_short (msg : Bytes) (h : msg.length ≤ 8192) : (Conn.mk msg false).read = some msg := by
  unfold Conn.read
  dsimp only
  split
  · rw [List.take_of_length_le h]
  · rfl

theorem read_long (msg : Bytes) (h : 8192 < msg.length) : (Conn.mk msg false).read = some (msg.take 8192) := by
  unfold Conn.read
  dsimp only
  rw [if_pos (by omega)]

theorem exchange_long (C : Crypto) (perms : Nat → Int → Bool) (rnd : Option Bytes) (d : Directory) (addr : Nat) (msg : Bytes)
    (h : 8192 < msg.length) (hb : unmarshalRequest goJson (msg.take 8192) = none) :
    exchange C perms rnd d addr msg = some (d, clientRead (marshalResponse (newErrorResponse ErrMalformedMessage))) := by
  unfold exchange acceptClient screen
  rw [read_long msg h]
  dsimp only
  rw [hb]; rfl

theorem exchange_short (C : Crypto) (perms : Nat → Int → Bool) (rnd : Option Bytes) (d : Directory) (addr : Nat) (msg : Bytes)
    (h : msg.length ≤ 8192) (req : Request) (hr : unmarshalRequest goJson msg = some req) (hp : perms addr req.type = true) :
    exchange C perms rnd d addr msg = (d.handleRequests C rnd req).map fun x => (x.1, clientRead (marshalResponse x.2)) := by
  unfold exchange acceptClient screen
  rw [read_short msg h]
  dsimp only
  rw [hr]
  dsimp only
  simp only [checkRequestType, hp, Bool.not_true, Bool.false_eq_true, if_false, Option.map_map]
  rfl

theorem handle_malformed (C : Crypto) (cc : Client) (t : Int) (n : Bytes) (key : Option Bytes) :
    cc.handleResponse C t ⟨ErrMalformedMessage, .none⟩ n key = some (cc, some ErrMalformedMessage) := rfl

/-- the client's side of an exchange with an honest server -/
theorem receive_sendable {C : Crypto} {cc : Client} {t : Int} {d : Directory} {r : Response} (h : Sendable t r) (n : Bytes) (key : Option Bytes) :
    cc.receive C t d (clientRead (marshalResponse r)) n key =
      if (marshalResponse r).length ≤ 8192 then (cc.handleResponse C t r n key).map fun y => (d, y.1, y.2)
      else some (d, cc, some ErrMalformedMessage) := by
  unfold Client.receive clientRead
  split
  · rename_i hl
    rw [List.take_of_length_le hl]
    have := h.roundtrip
    cases hu : unmarshalResponse t (marshalResponse r) with
    | none => rw [hu] at this; exact nomatch this
    | some w =>
      rw [hu] at this
      simp only [Option.map_some, Option.some.injEq] at this
      rw [Option.bind_some, this]
  · rename_i hl
    rw [unmarshal_bad t _ (take_marshal r h.strs 8192 (by omega)), Option.bind_some]
    rfl

theorem receive_error {C : Crypto} {cc : Client} {t : Int} {d : Directory} (n : Bytes) (key : Option Bytes) :
    cc.receive C t d (clientRead (marshalResponse (newErrorResponse ErrMalformedMessage))) n key = some (d, cc, some ErrMalformedMessage) := by
  have hl : (marshalResponse (newErrorResponse ErrMalformedMessage)).length ≤ 8192 := by decide +kernel
  rw [receive_sendable (sendable_error t _ (Or.inl rfl)), if_pos hl]
  rfl

/-! ### Sessions -/

theorem handle_reg (C : Crypto) (rnd : Option Bytes) (d : Directory) (r : RegistrationRequest) :
    d.handleRequests C rnd ⟨0, .registration r⟩ = d.register C rnd r := rfl
theorem handle_lookup (C : Crypto) (rnd : Option Bytes) (d : Directory) (r : KeyLookupRequest) :
    d.handleRequests C rnd ⟨1, .keyLookup r⟩ = (d.keyLookup C r).map fun x => (d, x) := rfl

/-- what a registration over the network amounts to -/
theorem wireRegister_eq {C : Crypto} {perms : Nat → Int → Bool} {addr : Nat} (hp : perms addr 0 = true) {rnd : Option Bytes} {d : Directory}
    (i : StdDir d) {cc : Client} {n k : Bytes} (hn : Utf8 n) :
    cc.wireRegister C perms rnd d addr n k =
      if (createRegistrationMsg n (some k)).length ≤ 8192 then
        (d.register C rnd ⟨n, k⟩).bind fun x =>
          if (marshalResponse x.2).length ≤ 8192 then
            (cc.handleResponse C 0 x.2 n (some k)).map fun y => (x.1, y.1, y.2)
          else some (x.1, cc, some ErrMalformedMessage)
      else some (d, cc, some ErrMalformedMessage) := by
  unfold Client.wireRegister
  split
  · rename_i hl
    rw [exchange_short C perms rnd d addr _ hl _ (request_registration n (some k)) hp, (clean_iff n).mpr hn, Option.getD_some, handle_reg]
    cases hr : d.register C rnd ⟨n, k⟩ with
    | none => rfl
    | some x =>
      obtain ⟨d', r⟩ := x
      simp only [Option.map_some, Option.bind_some]
      exact receive_sendable (register_sendable i hr) n (some k)
  · rename_i hl
    have hlt : 8192 < (createRegistrationMsg n (some k)).length := by omega
    have hc : unmarshalRequest goJson ((createRegistrationMsg n (some k)).take 8192) = none :=
      request_cut RegistrationType _ (encRegistration_ok n (some k)).1 8192 hlt
    rw [exchange_long C perms rnd d addr _ hlt hc, Option.bind_some]
    exact receive_error n (some k)

/-- what a lookup over the network amounts to -/
theorem wireLookup_eq {C : Crypto} {perms : Nat → Int → Bool} {addr : Nat} (hp : perms addr 1 = true) {d : Directory}
    (i : StdDir d) {cc : Client} {n : Bytes} {key : Option Bytes} (hn : Utf8 n) :
    cc.wireLookup C perms d addr n key =
      if (createKeyLookupMsg n).length ≤ 8192 then
        (d.keyLookup C ⟨n⟩).bind fun r =>
          if (marshalResponse r).length ≤ 8192 then
            (cc.handleResponse C 1 r n key).map fun y => (d, y.1, y.2)
          else some (d, cc, some ErrMalformedMessage)
      else some (d, cc, some ErrMalformedMessage) := by
  unfold Client.wireLookup
  split
  · rename_i hl
    rw [exchange_short C perms none d addr _ hl _ (request_lookup n) hp, (clean_iff n).mpr hn, handle_lookup]
    cases hr : d.keyLookup C ⟨n⟩ with
    | none => rfl
    | some r =>
      simp only [Option.map_some, Option.bind_some]
      exact receive_sendable (lookup_sendable i hr) n key
  · rename_i hl
    have hlt : 8192 < (createKeyLookupMsg n).length := by omega
    have hc : unmarshalRequest goJson ((createKeyLookupMsg n).take 8192) = none :=
      request_cut KeyLookupType _ (encRegistration_ok n none).1 8192 hlt
    rw [exchange_long C perms none d addr _ hlt hc, Option.bind_some]
    exact receive_error n key

theorem wire_session {C : Crypto} {perms : Nat → Int → Bool} {addr : Nat} (h0 : perms addr 0 = true) (h1 : perms addr 1 = true) :
    ∀ (ops : List SesOp) (d : Directory) (cc : Client), StdDir d → (∀ n ∈ ownNames ops, Utf8 n) → AllFit C d ops = true →
    runWireSession C perms addr d cc ops = runSession C d cc ops
  | [], _, _, _, _, _ => rfl
  | .dir op :: ops, d, cc, i, hn, hf => by
    simp only [AllFit, SesOp.dirOp, Bool.and_eq_true] at hf
    simp only [runWireSession, runSession]
    cases hs : d.step C op with
    | none => rfl
    | some x =>
      obtain ⟨d', r⟩ := x
      rw [hs] at hf
      simp only [Bool.and_eq_true] at hf
      exact wire_session h0 h1 ops d' cc (step_std i hs) hn hf.2.2
  | .lookup n key :: ops, d, cc, i, hn, hf => by
    simp only [AllFit, SesOp.dirOp, Bool.and_eq_true, requestFits, decide_eq_true_eq] at hf
    simp only [runWireSession, runSession]
    rw [wireLookup_eq h1 i (hn n (by simp [ownNames])), if_pos hf.1]
    cases hs : d.keyLookup C ⟨n⟩ with
    | none => rfl
    | some r =>
      have hstep : d.step C (.keyLookup ⟨n⟩) = some (d, some r) := by simp [Directory.step, hs]
      rw [hstep] at hf
      simp only [Bool.and_eq_true, answerFits, decide_eq_true_eq] at hf
      simp only [Option.bind_some, if_pos hf.2.1]
      show Option.bind (Option.map _ (cc.handleResponse C 1 r n key)) _ = Option.bind (cc.handleResponse C 1 r n key) _
      cases cc.handleResponse C 1 r n key with
      | none => rfl
      | some y =>
        simp only [Option.map_some, Option.bind_some]
        rw [wire_session h0 h1 ops d y.1 i (fun m hm => hn m (by simp [ownNames, hm])) hf.2.2]
  | .register rnd n k :: ops, d, cc, i, hn, hf => by
    simp only [AllFit, SesOp.dirOp, Bool.and_eq_true, requestFits, decide_eq_true_eq] at hf
    simp only [runWireSession, runSession]
    rw [wireRegister_eq h0 i (hn n (by simp [ownNames])), if_pos hf.1]
    cases hs : d.register C rnd ⟨n, k⟩ with
    | none => rfl
    | some x =>
      obtain ⟨d', r⟩ := x
      have hstep : d.step C (.register rnd ⟨n, k⟩) = some (d', some r) := by simp [Directory.step, hs]
      rw [hstep] at hf
      simp only [Bool.and_eq_true, answerFits, decide_eq_true_eq] at hf
      simp only [Option.bind_some, if_pos hf.2.1]
      show Option.bind (Option.map _ (cc.handleResponse C 0 r n (some k))) _ = Option.bind (cc.handleResponse C 0 r n (some k)) _
      cases cc.handleResponse C 0 r n (some k) with
      | none => rfl
      | some y =>
        simp only [Option.map_some, Option.bind_some]
        rw [wire_session h0 h1 ops d' y.1 (step_std i hstep) (fun m hm => hn m (by simp [ownNames, hm])) hf.2.2]

end Coniks
