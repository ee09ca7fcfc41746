import Verif.Proofs.DirPad
import Verif.Proofs.EvalDir
import Verif.Props.Pad
/-
C21, C23 - C31: the key directory. `dirAfter ... ops = some (d, log)`: the directory `d` after the history `ops` of calls, and
the STRs it issued (`log[e]` is the STR of epoch `e`, see C18).
-/
namespace Coniks.Props
open Coniks Spec

/-- alice registers, the deadline is changed, two epochs pass, bob registers, carol's registration fails for lack of entropy,
alice tries to replace her key -/
def sampleDir : List DirOp :=
  [.register (some [1]) ⟨[0x61], [1, 2]⟩, .setPolicies 77, .update, .register (some [2]) ⟨[0x62], [3]⟩, .keyLookup ⟨[0x61]⟩,
   .register none ⟨[0x63], [4]⟩, .update, .register (some [3]) ⟨[0x61], [9]⟩, .monitor ⟨[0x61], 0, 9⟩, .update]

/-- the sample history does not panic -/
theorem sampleDir_runs : ∃ d log, dirAfter Crypto.toy 5 [1] [2] 10 [3] [4] sampleDir = some (d, log) := by
  have : (dirAfter Crypto.toy 5 [1] [2] 10 [3] [4] sampleDir).isSome = true := by rw [dirAfterE_eq]; decide +kernel
  obtain ⟨x, hx⟩ := Option.isSome_iff_exists.mp this
  exact ⟨x.1, x.2, hx⟩

/-- the indices of the sample names are well spread -/
theorem sampleDir_spread : IndexSpread (fun k => (Crypto.toy.vrfProve [2] k).1) ([0x61] :: regNames sampleDir) := by
  decide +kernel

/-! ### C21 -/

/-- C21. In every history (of any length): the STRs of epochs 0 and 1 carry the initial policies; if the history is `a`, then an
`Update`, which creates epoch `dirUpdates a + 1`, then `b`, then the STR of the following epoch `dirUpdates a + 2`, if there is
one, carries the deadline that was set last in `a`. The VRF key is always the one the directory was created with, and version and
hash are constants. -/
theorem C21_policies_delay (C : Crypto) (t0 : UInt64) (sk vk : Bytes) (size : Nat) (r₁ r₂ : Bytes) (ops : List DirOp)
    (d : Directory) (log : List STR) (h : dirAfter C t0 sk vk size r₁ r₂ ops = some (d, log)) :
    log.length = dirUpdates ops + 1 ∧
    (∀ s, (log[0]? = some s ∨ log[1]? = some s) → s.ad = newPolicies t0 (C.vrfPub vk)) ∧
    (∀ a b, ops = a ++ .update :: b → ∀ s, log[dirUpdates a + 2]? = some s →
      s.ad = newPolicies (lastDeadline t0 a) (C.vrfPub vk)) := by
  -- what a run does to the log
  have key : ∀ (ops : List DirOp) (d : Directory) (log : List STR) d' log', d.runLog C log ops = some (d', log') →
      log'.length = log.length + dirUpdates ops ∧ (∃ ext, log' = log ++ ext) ∧
      (∀ s, log'[log.length]? = some s → s.ad = d.pad.ad) ∧
      (∀ t vkp, d.policies = newPolicies t vkp → d'.policies = newPolicies (lastDeadline t ops) vkp) := by
    intro ops
    induction ops with
    | nil =>
      intro d log d' log' h
      simp only [Directory.runLog, Option.some.injEq, Prod.mk.injEq] at h
      obtain ⟨rfl, rfl⟩ := h
      exact ⟨rfl, ⟨[], by simp⟩, fun s hs => by simp at hs, fun t vkp e => e⟩
    | cons op ops ih =>
      intro d log d' log' h
      simp only [Directory.runLog] at h
      obtain ⟨⟨d1, r⟩, h1, h2⟩ := Option.bind_eq_some_iff.mp h
      obtain ⟨i1, ⟨ext, i2⟩, i3, i4⟩ := ih d1 _ d' log' h2
      obtain ⟨p1, p2, p3⟩ := step_policies h1
      refine ⟨?_, ⟨op.issued d1 ++ ext, by rw [i2, List.append_assoc]⟩, ?_, ?_⟩
      · rw [i1, dirUpdates_cons op ops, List.length_append, issued_length]; omega
      · by_cases hu : op = .update
        · obtain ⟨e1, e2, e3⟩ := p3 hu
          subst hu
          intro s hs
          rw [i2] at hs
          simp [DirOp.issued] at hs
          rw [← hs, e3]
        · have hi : op.issued d1 = [] := by cases op <;> first | rfl | exact absurd rfl hu
          intro s hs
          rw [hi, List.append_nil] at i3
          rw [i3 s hs, (p2 hu).1]
      · intro t vkp e
        rw [i4 _ vkp (p1 t vkp e)]
        congr 1
        cases op <;> rfl
  obtain ⟨d0, h0, _, q1, q2, q3, _⟩ := new_dir_inv C t0 sk vk size r₁ r₂ []
  simp only [dirAfter, h0, Option.bind_some] at h
  obtain ⟨k1, ⟨ext, k2⟩, k3, k4⟩ := key ops d0 _ d log h
  refine ⟨by rw [k1]; simp; omega, ?_, ?_⟩
  · rintro s (hs | hs)
    · rw [k2] at hs
      simp at hs
      rw [← hs, q3]
    · rw [k3 s hs, q2]
  · intro a b e s hs
    rw [e, show a ++ DirOp.update :: b = (a ++ [.update]) ++ b by simp, dir_runLog_append] at h
    obtain ⟨⟨d1, log1⟩, h1, h2⟩ := Option.bind_eq_some_iff.mp h
    rw [dir_runLog_append] at h1
    obtain ⟨⟨d2, log2⟩, h3, h4⟩ := Option.bind_eq_some_iff.mp h1
    obtain ⟨m1, _, _, m4⟩ := key a d0 _ d2 log2 h3
    simp only [Directory.runLog, Directory.step, Option.bind_some, DirOp.issued, Option.some.injEq, Prod.mk.injEq] at h4
    obtain ⟨n1, _, n3, _⟩ := key b d1 log1 d log h2
    have hl : log1.length = dirUpdates a + 2 := by rw [← h4.2, List.length_append, m1]; simp; omega
    rw [hl] at n3
    rw [n3 s hs, ← h4.1]
    show d2.policies = _
    exact m4 t0 (C.vrfPub vk) q1

/-- C21. The policies a client sees, in the STRs of answers, are those of the STR. -/
theorem C21_policies_shown (d : Directory) :
    d.latestSTR.policies = some d.pad.latest.ad ∧ d.epochDeadline = d.pad.latest.ad.epochDeadline := ⟨rfl, rfl⟩

example : ∃ d log s, dirAfter Crypto.toy 5 [1] [2] 10 [3] [4] sampleDir = some (d, log) ∧ log[2]? = some s ∧
    s.ad = newPolicies 77 (Crypto.toy.vrfPub [2]) := by
  obtain ⟨d, log, h⟩ := sampleDir_runs
  obtain ⟨h1, _, h3⟩ := C21_policies_delay Crypto.toy 5 [1] [2] 10 [3] [4] sampleDir d log h
  have hl : log.length = 4 := h1
  exact ⟨d, log, log[2], h, List.getElem?_eq_getElem (by omega),
    h3 (sampleDir.take 2) (sampleDir.drop 3) rfl _ (List.getElem?_eq_getElem (by show 0 + 2 < log.length; omega))⟩

/-! ### C23 -/

/-- what a successful registration means -/
theorem register_ok {C : Crypto} {sk vk : Bytes} {ns : List Bytes} {d d' : Directory} {log : List STR} {A : AbsDir}
    (inv : DirInv C sk vk ns d log A) (rnd : Option Bytes) (req : RegistrationRequest) (hn : req.username ∈ ns)
    (inj : IndexInj (fun k => (C.vrfProve vk k).1) ns) (resp : Response) (h : d.register C rnd req = some (d', resp))
    (ok : resp.error = ReqSuccess) : DirInv C sk vk ns d' log (A.add req.username req.key) := by
  obtain ⟨d'', resp', h', hc, _⟩ := register_spec inv rnd req hn inj
  rw [h] at h'
  simp only [Option.some.injEq, Prod.mk.injEq] at h'
  obtain ⟨rfl, rfl⟩ := h'
  rcases hc with ⟨_, _, hne⟩ | ⟨hi, _⟩
  · exact absurd ok hne
  · exact hi

theorem add_merged (A : AbsDir) (n k : Bytes) : (A.add n k).merged n = some k := by simp [AbsDir.merged, AbsDir.add]

/-- the state of affairs after a successful registration and any further history -/
theorem after_registration (C : Crypto) (t0 : UInt64) (sk vk : Bytes) (size : Nat) (r₁ r₂ : Bytes) (a b : List DirOp)
    (rnd : Option Bytes) (req : RegistrationRequest) (ns : List Bytes) (hn : ∀ n ∈ regNames (a ++ .register rnd req :: b), n ∈ ns)
    (inj : IndexInj (fun k => (C.vrfProve vk k).1) ns) (hlt : dirUpdates (a ++ b) < 2 ^ 64) (d₀ d₁ : Directory) (log₀ : List STR)
    (resp₁ : Response) (h₀ : dirAfter C t0 sk vk size r₁ r₂ a = some (d₀, log₀))
    (h₁ : d₀.register C rnd req = some (d₁, resp₁)) (ok : resp₁.error = ReqSuccess) (d : Directory) (log : List STR)
    (h : dirAfter C t0 sk vk size r₁ r₂ (a ++ .register rnd req :: b) = some (d, log)) :
    ∃ A₁ A, DirInv C sk vk ns d₁ log₀ A₁ ∧ A₁.merged req.username = some req.key ∧ DirInv C sk vk ns d log A ∧ Extends A₁ A ∧
      log₀.length = dirUpdates a + 1 ∧ log.length = dirUpdates (a ++ b) + 1 := by
  rw [dirUpdates_append] at hlt ⊢
  have hn1 : ∀ n ∈ regNames a, n ∈ ns := fun n hn' => hn n (by rw [regNames_append]; simp [hn'])
  have hn2 : ∀ n ∈ regNames b, n ∈ ns := fun n hn' => hn n (by rw [regNames_append]; simp [regNames, hn'])
  have hn3 : req.username ∈ ns := hn _ (by rw [regNames_append]; simp [regNames])
  obtain ⟨A₀, inv₀, _, hl₀⟩ := dirAfter_inv C t0 sk vk size r₁ r₂ a ns hn1 inj (by omega) d₀ log₀ h₀
  have inv₁ := register_ok inv₀ rnd req hn3 inj resp₁ h₁ ok
  rw [dirAfter_append, h₀] at h
  simp only [Option.bind_some, Directory.runLog, Directory.step, h₁, Option.map_some, DirOp.issued, List.append_nil] at h
  obtain ⟨A, inv, ext, _, hl, _⟩ := dir_run_inv C sk vk ns inj b d₁ log₀ _ inv₁ hn2 (by omega) d log h
  exact ⟨_, A, inv₁, add_merged _ _ _, inv, ext, hl₀, by omega⟩

/-- C23. Let `Register` of a name succeed after a history `a`, and let any history `b` follow. Then every answer to a request
about that name shows no other key than the registered one (in a proof or in a promise), and a further `Register` of the name
is refused with `ReqNameExisted` and changes nothing. `inj`: the names used have different VRF indices. -/
theorem C23_first_registration_wins (C : Crypto) (t0 : UInt64) (sk vk : Bytes) (size : Nat) (r₁ r₂ : Bytes) (a b : List DirOp)
    (rnd : Option Bytes) (req : RegistrationRequest)
    (inj : IndexInj (fun k => (C.vrfProve vk k).1) (regNames (a ++ .register rnd req :: b)))
    (hlt : dirUpdates (a ++ b) < 2 ^ 64) (d₀ d₁ : Directory) (log₀ : List STR) (resp₁ : Response)
    (h₀ : dirAfter C t0 sk vk size r₁ r₂ a = some (d₀, log₀)) (h₁ : d₀.register C rnd req = some (d₁, resp₁))
    (ok : resp₁.error = ReqSuccess) (d : Directory) (log : List STR)
    (h : dirAfter C t0 sk vk size r₁ r₂ (a ++ .register rnd req :: b) = some (d, log))
    (op : DirOp) (hop : reqName op = some req.username) (d' : Directory) (resp : Response)
    (hs : d.step C op = some (d', some resp)) :
    (∀ k ∈ keysShown resp, k = req.key) ∧
    (∀ rnd' key', op = .register rnd' ⟨req.username, key'⟩ → d' = d ∧ (key' ≠ [] → resp.error = ReqNameExisted)) := by
  obtain ⟨A₁, A, inv₁, hm, inv, ext, _⟩ := after_registration C t0 sk vk size r₁ r₂ a b rnd req _ (fun _ hn => hn) inj hlt
    d₀ d₁ log₀ resp₁ h₀ h₁ ok d log h
  have hv := ext.merged _ _ hm
  have hmem : req.username ∈ regNames (a ++ .register rnd req :: b) := by rw [regNames_append]; simp [regNames]
  have inj' : IndexInj (fun k => (C.vrfProve vk k).1) (req.username :: regNames (a ++ .register rnd req :: b)) := by
    intro x hx y hy e
    refine inj x ?_ y ?_ e
    · rcases List.mem_cons.mp hx with rfl | hx; exact hmem; exact hx
    · rcases List.mem_cons.mp hy with rfl | hy; exact hmem; exact hy
  have hne : req.username ≠ [] := by
    intro e
    unfold Directory.register at h₁
    rw [if_pos (by simp [e])] at h₁
    cases h₁
    simp [newErrorResponse, ErrMalformedMessage, ReqSuccess] at ok
  cases op with
  | register rnd' req' =>
    simp only [reqName, Option.some.injEq] at hop
    obtain ⟨⟨d2, r2⟩, g1, g2⟩ := Option.map_eq_some_iff.mp hs
    simp only [Prod.mk.injEq, Option.some.injEq] at g2
    obtain ⟨rfl, rfl⟩ := g2
    obtain ⟨e1, e2, e3⟩ := register_keys inv rnd' req' (by rw [hop]; exact inj') req.key (by rw [hop]; exact hv) _ _ g1
    refine ⟨e2, ?_⟩
    rintro rnd'' key' e
    cases e
    exact ⟨e1, fun hk => e3 hne hk⟩
  | keyLookup req' =>
    simp only [reqName, Option.some.injEq] at hop
    obtain ⟨r2, g1, g2⟩ := Option.map_eq_some_iff.mp hs
    simp only [Prod.mk.injEq, Option.some.injEq] at g2
    obtain ⟨rfl, rfl⟩ := g2
    exact ⟨keyLookup_keys inv req' (by rw [hop]; exact inj') req.key (by rw [hop]; exact hv) _ g1, fun _ _ e => by cases e⟩
  | keyLookupInEpoch req' =>
    simp only [reqName, Option.some.injEq] at hop
    obtain ⟨r2, g1, g2⟩ := Option.map_eq_some_iff.mp hs
    simp only [Prod.mk.injEq, Option.some.injEq] at g2
    obtain ⟨rfl, rfl⟩ := g2
    exact ⟨keyLookupInEpoch_keys inv req' (by rw [hop]; exact inj') req.key (by rw [hop]; exact hv) _ g1, fun _ _ e => by cases e⟩
  | monitor req' =>
    simp only [reqName, Option.some.injEq] at hop
    obtain ⟨r2, g1, g2⟩ := Option.map_eq_some_iff.mp hs
    simp only [Prod.mk.injEq, Option.some.injEq] at g2
    obtain ⟨rfl, rfl⟩ := g2
    exact ⟨monitor_keys inv req' (by rw [hop]; exact inj') req.key (by rw [hop]; exact hv) _ g1, fun _ _ e => by cases e⟩
  | getSTRHistory _ => cases hop
  | update => cases hop
  | setPolicies _ => cases hop

/-- the sample: alice's second registration, after two updates, is refused, and her first key is the one shown -/
example : ∃ d₀ log₀ d₁ resp₁ d log d' resp,
    dirAfter Crypto.toy 5 [1] [2] 10 [3] [4] [] = some (d₀, log₀) ∧
    d₀.register Crypto.toy (some [1]) ⟨[0x61], [1, 2]⟩ = some (d₁, resp₁) ∧ resp₁.error = ReqSuccess ∧
    dirAfter Crypto.toy 5 [1] [2] 10 [3] [4] ([] ++ sampleDir) = some (d, log) ∧
    d.step Crypto.toy (.register (some [7]) ⟨[0x61], [9]⟩) = some (d', some resp) ∧ keysShown resp = [[1, 2]] ∧
    resp.error = ReqNameExisted := by
  obtain ⟨d, log, h⟩ := sampleDir_runs
  have h0 : (((dirAfter Crypto.toy 5 [1] [2] 10 [3] [4] []).bind fun x =>
      x.1.register Crypto.toy (some [1]) ⟨[0x61], [1, 2]⟩).map fun x => x.2.error) = some ReqSuccess := by
    rw [dirAfterE_eq]; simp only [registerE_eq]; decide +kernel
  have h1 : (((dirAfter Crypto.toy 5 [1] [2] 10 [3] [4] sampleDir).bind fun x =>
      x.1.step Crypto.toy (.register (some [7]) ⟨[0x61], [9]⟩)).map fun x => x.2.map fun r => (keysShown r, r.error)) =
        some (some ([[1, 2]], ReqNameExisted)) := by
    rw [dirAfterE_eq]; simp only [stepE_eq]; decide +kernel
  obtain ⟨x, hx, hx'⟩ := Option.map_eq_some_iff.mp h0
  obtain ⟨y, hy, hy'⟩ := Option.bind_eq_some_iff.mp hx
  rw [h, Option.bind_some] at h1
  obtain ⟨z, hz, hz'⟩ := Option.map_eq_some_iff.mp h1
  obtain ⟨r, hr, hr'⟩ := Option.map_eq_some_iff.mp hz'
  simp only [Prod.mk.injEq] at hr'
  refine ⟨y.1, y.2, x.1, x.2, d, log, z.1, r, hy, hy', hx', h, ?_, hr'.1, hr'.2⟩
  rw [hz, ← hr]

/-! ### C24 -/

/-- C24. Let `Register` succeed after a history `a`. The answer carries a promise for the name's VRF index and the key, signed
over the current STR's signature, the index and the key. Let any history `b` follow that has at least one `Update`. Then
`KeyLookup` of the name succeeds with a proof of inclusion, and so does `KeyLookupInEpoch` for every epoch after the one of the
registration that can be looked up (`GetSTR` knows it): the leaf has the promised index and the promised value, and the proof
verifies under the STR of that epoch. -/
theorem C24_promises_kept (C : Crypto) (t0 : UInt64) (sk vk : Bytes) (size : Nat) (r₁ r₂ : Bytes) (a b : List DirOp)
    (rnd : Option Bytes) (req : RegistrationRequest)
    (inj : IndexInj (fun k => (C.vrfProve vk k).1) (regNames (a ++ .register rnd req :: b)))
    (hlt : dirUpdates (a ++ b) < 2 ^ 64) (hb : 0 < dirUpdates b) (d₀ d₁ : Directory) (log₀ : List STR) (resp₁ : Response)
    (h₀ : dirAfter C t0 sk vk size r₁ r₂ a = some (d₀, log₀)) (h₁ : d₀.register C rnd req = some (d₁, resp₁))
    (ok : resp₁.error = ReqSuccess) (d : Directory) (log : List STR)
    (h : dirAfter C t0 sk vk size r₁ r₂ (a ++ .register rnd req :: b) = some (d, log)) :
    ∃ ap₁ tb, resp₁.resp = .proof ⟨[some ap₁], [some d₀.latestSTR], some tb⟩ ∧
      tb.index = (C.vrfProve vk req.username).1 ∧ tb.value = req.key ∧
      C.verify (C.signPub sk) (d₀.latestSTR.core.signature ++ tb.index ++ tb.value) tb.signature = true ∧
      (∃ ap l, d.keyLookup C ⟨req.username⟩ = some ⟨ReqSuccess, .proof ⟨[some ap], [some d.latestSTR], none⟩⟩ ∧
        ap.leaf = some l ∧ ap.lookupIndex = tb.index ∧ l.index = tb.index ∧ l.value = some tb.value ∧
        ap.verify C req.username tb.value d.latestSTR.core.treeHash = some (.ok ())) ∧
      (∀ e : UInt64, d₀.latestSTR.core.epoch < e → e ≤ d.latestSTR.core.epoch → d.pad.getSTR e ≠ none →
        ∃ ap l str strs, d.keyLookupInEpoch C ⟨req.username, e⟩ = some ⟨ReqSuccess, .proof ⟨[some ap], some str :: strs, none⟩⟩ ∧
          str.core.epoch = e ∧
          ap.leaf = some l ∧ ap.lookupIndex = tb.index ∧ l.index = tb.index ∧ l.value = some tb.value ∧
          ap.verify C req.username tb.value str.core.treeHash = some (.ok ())) := by
  obtain ⟨A₁, A, inv₁, hm, inv, ext, hl₀, hl⟩ := after_registration C t0 sk vk size r₁ r₂ a b rnd req _ (fun _ hn => hn) inj hlt
    d₀ d₁ log₀ resp₁ h₀ h₁ ok d log h
  have hmem : req.username ∈ regNames (a ++ .register rnd req :: b) := by rw [regNames_append]; simp [regNames]
  have inj' : IndexInj (fun k => (C.vrfProve vk k).1) (req.username :: regNames (a ++ .register rnd req :: b)) := by
    intro x hx y hy e
    refine inj x ?_ y ?_ e
    · rcases List.mem_cons.mp hx with rfl | hx; exact hmem; exact hx
    · rcases List.mem_cons.mp hy with rfl | hy; exact hmem; exact hy
  have leafIdx : ∀ {ap : AuthPath} {th v}, ProofShows C vk req.username th ap (some v) →
      ∃ l, ap.leaf = some l ∧ ap.lookupIndex = (C.vrfProve vk req.username).1 ∧ l.index = (C.vrfProve vk req.username).1 ∧
        l.value = some v ∧ ap.verify C req.username v th = some (.ok ()) := by
    intro ap th v hs
    obtain ⟨l, e1, e2⟩ := hs.value
    refine ⟨l, e1, hs.index, ?_, e2, hs.verifies v (Or.inl rfl)⟩
    have ht := hs.type
    simp only [AuthPath.proofType, e1, hs.index, Option.isSome_some, if_true, Option.some.injEq] at ht
    by_cases e : (C.vrfProve vk req.username).1 = l.index
    · exact e.symm
    · simp [e] at ht
  have hn1 : ∀ n ∈ regNames a, n ∈ regNames (a ++ .register rnd req :: b) := fun n hn' => by rw [regNames_append]; simp [hn']
  rw [dirUpdates_append] at hlt hl
  obtain ⟨A₀, inv₀, _, _⟩ := dirAfter_inv C t0 sk vk size r₁ r₂ a _ hn1 inj (by omega) d₀ log₀ h₀
  have htb : ∃ ap₁, resp₁.resp = .proof ⟨[some ap₁], [some d₀.latestSTR],
      some (promise C sk vk d₀.latestSTR.core.signature req.username req.key)⟩ := by
    have notok : ∀ {x : Directory × Response}, x.2.error ≠ ReqSuccess → some x = some (d₁, resp₁) → False := by
      intro x hx e
      simp only [Option.some.injEq] at e
      rw [e] at hx
      exact hx ok
    unfold Directory.register at h₁
    split at h₁
    · exact (notok (by simp [newErrorResponse, ErrMalformedMessage, ErrDirectory, ReqSuccess]) h₁).elim
    · split at h₁
      · cases h₁
      · exact (notok (by simp [newErrorResponse, ErrMalformedMessage, ErrDirectory, ReqSuccess]) h₁).elim
      · split at h₁
        · cases h₁
        · exact (notok (by simp [newSingleProof, ReqNameExisted, ReqSuccess]) h₁).elim
        · split at h₁
          · exact (notok (by simp [newSingleProof, ReqNameExisted, ReqSuccess]) h₁).elim
          · simp only at h₁
            split at h₁
            · cases h₁
            · exact (notok (by simp [newErrorResponse, ErrMalformedMessage, ErrDirectory, ReqSuccess]) h₁).elim
            · next ap _ _ _ _ _ pad' hset =>
              have hlat : pad'.latest = d₀.pad.latest := by
                obtain ⟨p2, s1, s2, _⟩ := pad_set_spec C d₀.pad log₀ inv₀.pad rnd req.username req.key
                rw [hset] at s1
                simp only [Option.some.injEq, Prod.mk.injEq] at s1
                rw [s1.1]; exact s2.latest
              simp only [Option.some.injEq, Prod.mk.injEq] at h₁
              rw [← h₁.2]
              simp only [newSingleProof, inv₀.tbsOn, if_true, newTB_eq inv₀, Directory.latestSTR, hlat]
              exact ⟨_, rfl⟩
  obtain ⟨ap₁, htb⟩ := htb
  refine ⟨ap₁, _, htb, rfl, rfl, ?_, ?_, ?_⟩
  · show C.verify _ (_ ++ (C.vrfProve vk req.username).1 ++ req.key) (C.sign sk _) = true
    exact C.verify_sign _ _
  · -- the latest epoch
    obtain ⟨ex, hx1, hx2⟩ := ext.past
    have hcom : A.committed req.username = some req.key := by
      have hlen : 0 < ex.length := by
        have e1 := congrArg List.length hx1
        rw [List.length_append, inv.len, inv₁.len] at e1
        omega
      have hlast : ex.getLast? = some A.committed := by
        have := inv.last
        rw [hx1, List.getLast?_append] at this
        cases hq : ex.getLast? with
        | none => rw [List.getLast?_eq_none_iff] at hq; rw [hq] at hlen; simp at hlen
        | some M => rw [hq] at this; simpa using this
      exact hx2 _ (List.mem_of_getLast? hlast) _ _ hm
    obtain ⟨resp, g1, g2⟩ := keyLookup_spec inv ⟨req.username⟩ inj'
    rcases g2 with ⟨g2, _⟩ | g2
    · rw [hcom] at g2; cases g2
    · have hne : req.username ≠ [] := by
        intro e
        unfold Directory.register at h₁
        rw [if_pos (by simp [e])] at h₁
        cases h₁
        simp [newErrorResponse, ErrMalformedMessage, ReqSuccess] at ok
      simp only [Answers, AbsDir.lookupAnswer, if_neg hne, hcom] at g2
      rw [if_neg (by decide)] at g2
      obtain ⟨ap, e1, e2⟩ := g2
      obtain ⟨l, f1, f2, f3, f4, f5⟩ := leafIdx e2
      exact ⟨ap, l, by rw [g1, e1]; rfl, f1, f2, f3, f4, f5⟩
  · intro e he1 he2 hg
    have hne : req.username ≠ [] := by
      intro e
      unfold Directory.register at h₁
      rw [if_pos (by simp [e])] at h₁
      cases h₁
      simp [newErrorResponse, ErrMalformedMessage, ReqSuccess] at ok
    have hl1 : d.latestSTR.core.epoch.toNat = log.length - 1 := inv.pad.latest_toNat
    have hl2 : d₀.latestSTR.core.epoch.toNat = log₀.length - 1 := inv₀.pad.latest_toNat
    have hp0 := inv₀.pad.len_pos
    have hp := inv.pad.len_pos
    have hsm := inv.pad.small
    rw [UInt64.lt_iff_toNat_lt] at he1
    rw [UInt64.le_iff_toNat_le] at he2
    obtain ⟨lo, r⟩ := retrievable inv.pad
    have hlo : lo ≤ e.toNat := by
      rcases Nat.lt_or_ge e.toNat lo with x | x
      · exact absurd (r.evicted e x) hg
      · exact x
    obtain ⟨_, _, h3⟩ := keyLookupInEpoch_spec inv r ⟨req.username, e⟩ inj'
    obtain ⟨ap, s, M, code, g1, g2, g3, g4, _⟩ := h3 hne hlo (show e.toNat < log.length by omega)
    simp only at g1 g2 g3 g4
    obtain ⟨ex, hx1, hx2⟩ := ext.past
    have hM : M req.username = some req.key := by
      rw [hx1, List.getElem?_append_right (by rw [inv₁.len]; omega)] at g3
      exact hx2 _ (List.mem_of_getElem? g3) _ _ hm
    obtain ⟨c1, c2⟩ := g4 _ hM
    obtain ⟨l, f1, f2, f3, f4, f5⟩ := leafIdx c2
    have hlt' : e.toNat < log.length := by omega
    have hse : log[e.toNat] = s := by rw [List.getElem?_eq_getElem hlt'] at g2; simpa using g2
    refine ⟨ap, l, s.toDir, ((log.drop (e.toNat + 1)).map STR.toDir).map some, ?_, ?_, f1, f2, f3, f4, f5⟩
    · rw [g1, c1, List.drop_eq_getElem_cons hlt', hse]; rfl
    · show s.core.epoch = e
      rw [inv.pad.epoch _ _ g2]
      exact UInt64.ofNat_toNat

/-- the sample: bob registered in epoch 1; his promise is kept in epochs 2 and 3 -/
example : ∃ d₀ log₀ d₁ resp₁ d log, dirAfter Crypto.toy 5 [1] [2] 10 [3] [4] (sampleDir.take 3) = some (d₀, log₀) ∧
    d₀.register Crypto.toy (some [2]) ⟨[0x62], [3]⟩ = some (d₁, resp₁) ∧ resp₁.error = ReqSuccess ∧
    dirAfter Crypto.toy 5 [1] [2] 10 [3] [4] (sampleDir.take 3 ++ .register (some [2]) ⟨[0x62], [3]⟩ :: sampleDir.drop 4) = some (d, log) ∧
    0 < dirUpdates (sampleDir.drop 4) ∧ d₀.latestSTR.core.epoch = 1 ∧ d.latestSTR.core.epoch = 3 ∧ d.pad.getSTR 2 ≠ none ∧
    d.pad.getSTR 3 ≠ none := by
  have h0 : ((dirAfter Crypto.toy 5 [1] [2] 10 [3] [4] (sampleDir.take 3)).bind fun x =>
      (x.1.register Crypto.toy (some [2]) ⟨[0x62], [3]⟩).map fun y => (x.1.latestSTR.core.epoch, y.2.error)) = some (1, ReqSuccess) := by
    rw [dirAfterE_eq]; simp only [registerE_eq]; decide +kernel
  obtain ⟨d, log, h⟩ := sampleDir_runs
  have h1 : ((dirAfter Crypto.toy 5 [1] [2] 10 [3] [4] sampleDir).map fun x =>
      (x.1.latestSTR.core.epoch, (x.1.pad.getSTR 2).isSome, (x.1.pad.getSTR 3).isSome)) = some (3, true, true) := by
    rw [dirAfterE_eq]; decide +kernel
  obtain ⟨x, hx, hx'⟩ := Option.bind_eq_some_iff.mp h0
  obtain ⟨y, hy, hy'⟩ := Option.map_eq_some_iff.mp hx'
  simp only [Prod.mk.injEq] at hy'
  rw [h] at h1
  simp only [Option.map_some, Option.some.injEq, Prod.mk.injEq] at h1
  refine ⟨x.1, x.2, y.1, y.2, d, log, hx, hy, hy'.2, h, by decide, hy'.1, h1.1, ?_, ?_⟩
  · intro e; rw [e] at h1; simp at h1
  · intro e; rw [e] at h1; simp at h1

/-! ### C25 -/

/-- C25. In every reachable state `Register` and `KeyLookup` answer exactly as the abstract directory does: same status code, the
proof shows the committed key (or absence) and verifies under the latest STR, the promise is there exactly when the name is
pending (or just registered) and shows the pending key. After `Register`, the state is again that of the abstract directory.
`spread` says that the VRF indices of the names used differ within their first 248 bits; with mere injectivity the claim
is false (`C25_deep_prefix_counterexample`), and `C25_exact` says what holds for every VRF. -/
theorem C25_responses_spread (C : Crypto) (t0 : UInt64) (sk vk : Bytes) (size : Nat) (r₁ r₂ : Bytes) (ops : List DirOp)
    (hlt : dirUpdates ops < 2 ^ 64) (d : Directory) (log : List STR) (h : dirAfter C t0 sk vk size r₁ r₂ ops = some (d, log))
    (n : Bytes) (spread : IndexSpread (fun k => (C.vrfProve vk k).1) (n :: regNames ops)) :
    (∃ resp, d.keyLookup C ⟨n⟩ = some resp ∧ Answers C sk vk n d.latestSTR resp ((absAfter ops).lookupAnswer n)) ∧
    (∀ rnd key, ∃ d' resp, d.register C rnd ⟨n, key⟩ = some (d', resp) ∧
      Answers C sk vk n d.latestSTR resp ((absAfter ops).registerAnswer rnd n key)) := by
  have inj := spread_inj spread
  obtain ⟨A, inv, hA, _⟩ := dirAfter_inv C t0 sk vk size r₁ r₂ ops (n :: regNames ops) (fun _ hn => List.mem_cons_of_mem _ hn) inj hlt
    d log h
  rw [hA spread] at inv
  have spread' : IndexSpread (fun k => (C.vrfProve vk k).1) (n :: n :: regNames ops) := by
    intro a ha b hb e
    refine spread a ?_ b ?_ e
    · rcases List.mem_cons.mp ha with rfl | ha; exact List.mem_cons_self ..; exact ha
    · rcases List.mem_cons.mp hb with rfl | hb; exact List.mem_cons_self ..; exact hb
  constructor
  · obtain ⟨resp, h1, h2⟩ := keyLookup_spec inv ⟨n⟩ (spread_inj spread')
    refine ⟨resp, h1, ?_⟩
    rcases h2 with ⟨_, h2, _⟩ | h2
    · exact absurd spread' h2
    · exact h2
  · intro rnd key
    obtain ⟨d', resp, h1, _, _, h2⟩ := register_spec inv rnd ⟨n, key⟩ (List.mem_cons_self ..) inj
    refine ⟨d', resp, h1, ?_⟩
    rcases h2 with ⟨_, h2⟩ | h2
    · exact absurd spread h2
    · exact h2

/-- An interface whose VRF outputs agree in their first 31 bytes (but are different for names with different first bytes). -/
def Crypto.deep : Crypto :=
  { Crypto.toy with
    vrfPub := fun sk => sk
    vrfProve := fun _ m => (List.replicate 31 0 ++ [m.headD 0], [])
    vrfVerify := fun _ m i _ => i == List.replicate 31 0 ++ [m.headD 0]
    vrf_length := by intro sk m; simp
    vrf_complete := by intro sk m _; simp
    vrfVerify_length := by intro pk m i p h; rw [beq_iff_eq] at h; simp [h] }

/-- C25 is false as stated: there is an interface and a history in which all names have different indices, and a name that was
never registered is refused with `ReqNameExisted` (and looked up with `ReqSuccess`, without a key). -/
theorem C25_deep_prefix_counterexample :
    let ops : List DirOp := [.register (some [1]) ⟨[0x80], [1]⟩, .register (some [1]) ⟨[0xC0], [2]⟩, .update]
    IndexInj (fun k => (Crypto.deep.vrfProve [2] k).1) ([0] :: regNames ops) ∧
    (absAfter ops).registerAnswer (some [7]) [0] [9] = (ReqSuccess, none, some [9]) ∧
    (absAfter ops).lookupAnswer [0] = (ReqNameNotFound, none, none) ∧
    ∃ d log d' resp resp', dirAfter Crypto.deep 5 [1] [2] 10 [3] [4] ops = some (d, log) ∧
      d.register Crypto.deep (some [7]) ⟨[0], [9]⟩ = some (d', resp) ∧ resp.error = ReqNameExisted ∧
      d.keyLookup Crypto.deep ⟨[0]⟩ = some resp' ∧ resp'.error = ReqSuccess ∧ keysShown resp' = [] := by
  refine ⟨by decide +kernel, by decide +kernel, by decide +kernel, ?_⟩
  have key : ((dirAfter Crypto.deep 5 [1] [2] 10 [3] [4]
      [.register (some [1]) ⟨[0x80], [1]⟩, .register (some [1]) ⟨[0xC0], [2]⟩, .update]).bind fun x =>
      (x.1.register Crypto.deep (some [7]) ⟨[0], [9]⟩).bind fun y => (x.1.keyLookup Crypto.deep ⟨[0]⟩).map fun z =>
        (y.2.error, z.error, keysShown z)) = some (ReqNameExisted, ReqSuccess, []) := by
    rw [dirAfterE_eq]; simp only [registerE_eq]; decide +kernel
  obtain ⟨x, h1, h2⟩ := Option.bind_eq_some_iff.mp key
  obtain ⟨y, h3, h4⟩ := Option.bind_eq_some_iff.mp h2
  obtain ⟨z, h5, h6⟩ := Option.map_eq_some_iff.mp h4
  simp only [Prod.mk.injEq] at h6
  exact ⟨x.1, x.2, y.1, y.2, z, h1, h3, h6.1, h5, h6.2.1, h6.2.2⟩

example (d : Directory) (log : List STR) (h : dirAfter Crypto.toy 5 [1] [2] 10 [3] [4] sampleDir = some (d, log)) :
    ∃ resp, d.keyLookup Crypto.toy ⟨[0x61]⟩ = some resp ∧
      Answers Crypto.toy [1] [2] [0x61] d.latestSTR resp (ReqSuccess, some [1, 2], none) := by
  obtain ⟨resp, h1, h2⟩ := (C25_responses_spread Crypto.toy 5 [1] [2] 10 [3] [4] sampleDir (by decide) d log h [0x61]
    sampleDir_spread).1
  rw [show (absAfter sampleDir).lookupAnswer [0x61] = (ReqSuccess, some [1, 2], none) by decide +kernel] at h2
  exact ⟨resp, h1, h2⟩

/-! ### C26 -/

/-- A request is malformed: empty name or key, an epoch that does not exist yet, an empty range. -/
def Malformed (latest : UInt64) : DirOp → Prop
  | .register _ req => req.username = [] ∨ req.key = []
  | .keyLookup req => req.username = []
  | .keyLookupInEpoch req => req.username = [] ∨ latest < req.epoch
  | .monitor req => req.username = [] ∨ latest < req.startEpoch ∨ req.endEpoch < req.startEpoch
  | .getSTRHistory req => latest < req.startEpoch ∨ req.endEpoch < req.startEpoch
  | .update => False
  | .setPolicies _ => False

/-- C26. In every state: a malformed request gets the bare status `ErrMalformedMessage` and leaves the directory as it is. -/
theorem C26_malformed (C : Crypto) (d : Directory) (op : DirOp) (h : Malformed d.latestSTR.core.epoch op) :
    d.step C op = some (d, some ⟨ErrMalformedMessage, .none⟩) := by
  cases op with
  | register rnd req =>
    simp only [Directory.step, Directory.register, List.length_eq_zero_iff]
    rw [if_pos (by simpa only [Malformed] using h)]; rfl
  | keyLookup req =>
    simp only [Directory.step, Directory.keyLookup, List.length_eq_zero_iff]
    rw [if_pos (by simpa only [Malformed] using h)]; rfl
  | keyLookupInEpoch req =>
    simp only [Directory.step, Directory.keyLookupInEpoch, List.length_eq_zero_iff, gt_iff_lt]
    rw [if_pos (by simpa only [Malformed] using h)]; rfl
  | monitor req =>
    simp only [Directory.step, Directory.monitor, List.length_eq_zero_iff, gt_iff_lt]
    rw [if_pos (by simpa only [Malformed] using h)]; rfl
  | getSTRHistory req =>
    simp only [Directory.step, Directory.getSTRHistory, gt_iff_lt]
    rw [if_pos (by simpa only [Malformed] using h)]; rfl
  | update => exact h.elim
  | setPolicies t => exact h.elim

/-- C26. In every reachable state: only malformed requests get `ErrMalformedMessage`. -/
theorem C26_only_malformed (C : Crypto) (d : Directory) (op : DirOp) (h : ¬ Malformed d.latestSTR.core.epoch op) (d' : Directory)
    (resp : Response) (hs : d.step C op = some (d', some resp)) : resp.error ≠ ErrMalformedMessage := by
  have hmap : ∀ {x : Go Response}, (x.map fun r => (d, some r)) = some (d', some resp) → x = some resp := by
    intro x hx
    obtain ⟨y, hy, e⟩ := Option.map_eq_some_iff.mp hx
    simp only [Prod.mk.injEq, Option.some.injEq] at e
    rw [hy, e.2]
  have n1 : ReqNameExisted ≠ ErrMalformedMessage := by decide
  have n2 : ReqSuccess ≠ ErrMalformedMessage := by decide
  have n3 : ReqNameNotFound ≠ ErrMalformedMessage := by decide
  have n4 : ErrDirectory ≠ ErrMalformedMessage := by decide
  cases op with
  | register rnd req =>
    obtain ⟨⟨d2, r2⟩, g1, g2⟩ := Option.map_eq_some_iff.mp hs
    simp only [Prod.mk.injEq, Option.some.injEq] at g2
    obtain ⟨rfl, rfl⟩ := g2
    unfold Directory.register at g1
    simp only [List.length_eq_zero_iff] at g1
    rw [if_neg (by simpa only [Malformed] using h)] at g1
    split at g1
    · cases g1
    · cases g1; exact n4
    · split at g1
      · cases g1
      · cases g1; exact n1
      · split at g1
        · cases g1; exact n1
        · split at g1
          · cases g1
          · cases g1; exact n4
          · cases g1; exact n2
  | keyLookup req =>
    have g1 := hmap hs
    unfold Directory.keyLookup at g1
    have h' : ¬ req.username.length = 0 := by simpa [Malformed] using h
    rw [if_neg h'] at g1
    split at g1
    · cases g1
    · cases g1; exact n4
    · split at g1
      · cases g1
      · cases g1; exact n2
      · split at g1
        · cases g1; exact n2
        · cases g1; exact n3
  | keyLookupInEpoch req =>
    have g1 := hmap hs
    unfold Directory.keyLookupInEpoch at g1
    simp only [List.length_eq_zero_iff, gt_iff_lt] at g1
    rw [if_neg (by simpa only [Malformed] using h)] at g1
    split at g1
    · cases g1
    · cases g1; exact n4
    · split at g1
      · cases g1
      · split at g1
        · cases g1
        · cases g1; exact n2
        · cases g1; exact n3
  | monitor req =>
    have g1 := hmap hs
    unfold Directory.monitor at g1
    simp only [List.length_eq_zero_iff, gt_iff_lt] at g1
    rw [if_neg (by simpa only [Malformed] using h)] at g1
    split at g1
    · cases g1
    · cases g1; exact n4
    · cases g1; exact n2
  | getSTRHistory req =>
    have g1 := hmap hs
    unfold Directory.getSTRHistory at g1
    simp only [gt_iff_lt] at g1
    rw [if_neg (by simpa only [Malformed] using h)] at g1
    obtain ⟨y, _, e⟩ := Option.map_eq_some_iff.mp g1
    rw [← e]; exact n2
  | update => simp [Directory.step] at hs
  | setPolicies t => simp [Directory.step] at hs

/-- C26. In every state: lookups, monitoring and history requests leave the directory as it is; so does a registration that is
answered with anything but `ReqSuccess`. -/
theorem C26_reads_pure (C : Crypto) (t0 : UInt64) (sk vk : Bytes) (size : Nat) (r₁ r₂ : Bytes) (ops : List DirOp)
    (hlt : dirUpdates ops < 2 ^ 64) (d : Directory) (log : List STR) (h : dirAfter C t0 sk vk size r₁ r₂ ops = some (d, log))
    (op : DirOp) (d' : Directory) (resp : Response) (hs : d.step C op = some (d', some resp))
    (hop : (∃ rnd req, op = .register rnd req) → resp.error ≠ ReqSuccess) : d' = d := by
  have same : ∀ {x : Go Response}, (x.map fun r => (d, some r)) = some (d', some resp) → d' = d := by
    intro x hx
    obtain ⟨y, _, hy⟩ := Option.map_eq_some_iff.mp hx
    exact (congrArg Prod.fst hy).symm
  obtain ⟨inv, _, _, _⟩ := dirAfter_padInv C t0 sk vk size r₁ r₂ ops hlt d log h
  cases op with
  | register rnd req =>
    have hne := hop ⟨rnd, req, rfl⟩
    obtain ⟨⟨d2, r2⟩, g1, g2⟩ := Option.map_eq_some_iff.mp hs
    simp only [Prod.mk.injEq, Option.some.injEq] at g2
    obtain ⟨rfl, rfl⟩ := g2
    unfold Directory.register at g1
    split at g1
    · cases g1; rfl
    · split at g1
      · cases g1
      · cases g1; rfl
      · split at g1
        · cases g1
        · cases g1; rfl
        · split at g1
          · cases g1; rfl
          · simp only at g1
            split at g1
            · cases g1
            · next pad' hset =>
              obtain ⟨p2, s1, s2, s3, _⟩ := pad_set_spec C d.pad log inv rnd req.username req.key
              rw [hset] at s1
              simp only [Option.some.injEq, Prod.mk.injEq] at s1
              have : rnd = none := by cases rnd with
                | none => rfl
                | some r => simp at s1
              have e := s3 this
              rw [← s1.1] at e
              cases g1
              rw [e]
            · cases g1; exact absurd rfl hne
  | keyLookup req => exact same hs
  | keyLookupInEpoch req => exact same hs
  | monitor req => exact same hs
  | getSTRHistory req => exact same hs
  | update => simp [Directory.step] at hs
  | setPolicies t => simp [Directory.step] at hs

example (d : Directory) : d.step Crypto.toy (.monitor ⟨[0x61], 4, 3⟩) = some (d, some ⟨ErrMalformedMessage, .none⟩) :=
  C26_malformed Crypto.toy d _ (Or.inr (Or.inr (by decide)))

/-! ### C27 -/

/-- C27. In every reachable state, a registration for which no entropy is available does not succeed and leaves the directory
exactly as it is; if the request is well-formed and the name is neither found in the tree nor pending, the answer is the bare
status `ErrDirectory`. -/
theorem C27_failed_registration (C : Crypto) (t0 : UInt64) (sk vk : Bytes) (size : Nat) (r₁ r₂ : Bytes) (ops : List DirOp)
    (hlt : dirUpdates ops < 2 ^ 64) (d : Directory) (log : List STR) (h : dirAfter C t0 sk vk size r₁ r₂ ops = some (d, log))
    (req : RegistrationRequest) :
    ∃ resp, d.register C none req = some (d, resp) ∧ resp.error ≠ ReqSuccess ∧
      (req.username ≠ [] → req.key ≠ [] → resp.error ≠ ReqNameExisted → resp = ⟨ErrDirectory, .none⟩) := by
  obtain ⟨inv, _, _, _⟩ := dirAfter_padInv C t0 sk vk size r₁ r₂ ops hlt d log h
  obtain ⟨⟨d', resp⟩, hx⟩ := register_total inv none req
  have hne : resp.error ≠ ReqSuccess ∧
      (req.username ≠ [] → req.key ≠ [] → resp.error ≠ ReqNameExisted → resp = ⟨ErrDirectory, .none⟩) := by
    have g1 := hx
    unfold Directory.register at g1
    split at g1
    · next hc =>
      cases g1
      refine ⟨by simp [newErrorResponse, ErrMalformedMessage, ReqSuccess], fun h1 h2 => ?_⟩
      simp [h1, h2] at hc
    · split at g1
      · cases g1
      · cases g1; exact ⟨by simp [newErrorResponse, ErrDirectory, ReqSuccess], fun _ _ _ => rfl⟩
      · split at g1
        · cases g1
        · cases g1; exact ⟨by simp [newSingleProof, ReqNameExisted, ReqSuccess], fun _ _ h => absurd rfl h⟩
        · split at g1
          · cases g1; exact ⟨by simp [newSingleProof, ReqNameExisted, ReqSuccess], fun _ _ h => absurd rfl h⟩
          · simp only at g1
            split at g1
            · cases g1
            · cases g1; exact ⟨by simp [newErrorResponse, ErrDirectory, ReqSuccess], fun _ _ _ => rfl⟩
            · next pad' hset =>
              obtain ⟨p2, s1, _⟩ := pad_set_spec C d.pad log inv none req.username req.key
              rw [hset] at s1
              simp at s1
  have hd := C26_reads_pure C t0 sk vk size r₁ r₂ ops hlt d log h (.register none req) d' resp
    (by rw [Directory.step, hx]; rfl) (fun _ => hne.1)
  subst hd
  exact ⟨resp, hx, hne⟩

/-- C27, for the abstract directory of C25: whatever history follows, it is as if the failed registration had not happened. -/
theorem C27_no_trace (C : Crypto) (t0 : UInt64) (sk vk : Bytes) (size : Nat) (r₁ r₂ : Bytes) (a b : List DirOp)
    (hlt : dirUpdates a < 2 ^ 64) (req : RegistrationRequest) :
    dirAfter C t0 sk vk size r₁ r₂ (a ++ .register none req :: b) = dirAfter C t0 sk vk size r₁ r₂ (a ++ b) := by
  rw [dirAfter_append, dirAfter_append]
  cases h : dirAfter C t0 sk vk size r₁ r₂ a with
  | none => rfl
  | some x =>
    obtain ⟨resp, h1, _⟩ := C27_failed_registration C t0 sk vk size r₁ r₂ a hlt x.1 x.2 h req
    simp [Directory.runLog, Directory.step, h1, DirOp.issued]

/-- in the sample, carol's registration fails; the answer is `ErrDirectory` -/
example : ((dirAfter Crypto.toy 5 [1] [2] 10 [3] [4] (sampleDir.take 5)).bind fun x =>
    (x.1.register Crypto.toy none ⟨[0x63], [4]⟩).map fun y => y.2) = some ⟨ErrDirectory, .none⟩ := by
  rw [dirAfterE_eq]; simp only [registerE_eq]; decide +kernel

/-! ### which epochs can be looked up -/

/-- The epochs that can be looked up after a history: a range ending with the latest; for a cache length of at least 2 it has at
least the latest `size - size/2 + 1` epochs (or all), and at most `size`. -/
theorem epochs_available (C : Crypto) (t0 : UInt64) (sk vk : Bytes) (size : Nat) (r₁ r₂ : Bytes) (ops : List DirOp)
    (hlt : dirUpdates ops < 2 ^ 64) (d : Directory) (log : List STR) (h : dirAfter C t0 sk vk size r₁ r₂ ops = some (d, log)) :
    ∃ lo, Retrievable d.pad log lo ∧
      (2 ≤ size → log.length - lo ≤ size ∧ min log.length (size - size / 2 + 1) ≤ log.length - lo) := by
  obtain ⟨inv, hl, _, _⟩ := dirAfter_padInv C t0 sk vk size r₁ r₂ ops hlt d log h
  obtain ⟨lo, r⟩ := retrievable inv
  refine ⟨lo, r, fun h2 => ?_⟩
  obtain ⟨pops, p1, p2⟩ := dirAfter_pad C t0 sk vk size r₁ r₂ ops d log h
  obtain ⟨lo', c1, c2, c3, c4, _⟩ := C19_cache_two C _ sk vk size h2 r₁ r₂ pops (by omega) d.pad log p1
  have : d.pad.loadedEpochs.length = numUpdates pops + 1 - lo' := by rw [c2]; simp
  have hc := r.count
  omega

/-! ### C28 -/

/-- a list of STRs is a chain: each is linked to its predecessor and signed by the directory -/
def Chained (C : Crypto) (pk : Bytes) (strs : List DirSTR) : Prop :=
  (∀ s ∈ strs, ∃ bytes, s.serialize = some bytes ∧ C.verify pk bytes s.core.signature = true) ∧
  (∀ j s t, strs[j]? = some s → strs[j + 1]? = some t → t.core.verifyHashChain C s.core = true)

theorem chained_part {C : Crypto} {p : PAD} {log : List STR} (inv : PadInv C p log) (s k : Nat) :
    Chained C (C.signPub p.signKey) (((log.drop s).take k).map STR.toDir) := by
  have hsm := inv.small
  constructor
  · intro x hx
    obtain ⟨y, hy, rfl⟩ := List.mem_map.mp hx
    have hy' : y ∈ log := List.mem_of_mem_drop (List.mem_of_mem_take hy)
    have e2 : y.toDir.core = y.core := rfl
    refine ⟨y.serialize, rfl, ?_⟩
    rw [e2, inv.sig y hy']
    exact C.verify_sign _ _
  · intro j x y hx hy
    rw [List.getElem?_map] at hx hy
    obtain ⟨x', hx1, rfl⟩ := Option.map_eq_some_iff.mp hx
    obtain ⟨y', hy1, rfl⟩ := Option.map_eq_some_iff.mp hy
    rw [List.getElem?_take] at hx1 hy1
    split at hx1
    · split at hy1
      · rw [List.getElem?_drop] at hx1 hy1
        rw [show s + (j + 1) = s + j + 1 by omega] at hy1
        have e1 : y'.core.previousEpoch = x'.core.epoch := by rw [inv.prev _ _ hy1, inv.epoch _ _ hx1, Nat.add_sub_cancel]
        have e2 := inv.chain _ _ _ hx1 hy1
        have e3 : y'.core.epoch = x'.core.epoch + 1 := by
          rw [inv.epoch _ _ hy1, inv.epoch _ _ hx1, UInt64.ofNat_add]; rfl
        simp [STRCore.verifyHashChain, STR.toDir, e1, e2, e3, Crypto.digest]
      · cases hy1
    · cases hx1

/-- C28. After any history, for every name and every existing epoch `e` that can be looked up, `KeyLookupInEpoch` returns one
proof and exactly the STRs of the epochs `e, ..., latest`, each signed and linked to the previous one. If the name was committed
in epoch `e`, status `ReqSuccess`, and the proof shows its key under the first STR returned. If the name was not
committed, the proof shows its absence (status `ReqNameNotFound`) provided the indices are spread over the first 248 bits (false
without: `C25_deep_prefix_counterexample` and C10; exactly: `C28_exact`); otherwise it shows no key. An epoch that was evicted gets `ErrDirectory`. -/
theorem C28_lookup_in_epoch (C : Crypto) (t0 : UInt64) (sk vk : Bytes) (size : Nat) (r₁ r₂ : Bytes) (ops : List DirOp)
    (hlt : dirUpdates ops < 2 ^ 64) (d : Directory) (log : List STR) (h : dirAfter C t0 sk vk size r₁ r₂ ops = some (d, log))
    (n : Bytes) (hn : n ≠ []) (inj : IndexInj (fun k => (C.vrfProve vk k).1) (n :: regNames ops)) (e : UInt64)
    (he : e.toNat ≤ dirUpdates ops) :
    (d.pad.getSTR e = none → d.keyLookupInEpoch C ⟨n, e⟩ = some ⟨ErrDirectory, .none⟩) ∧
    (d.pad.getSTR e ≠ none → ∃ ap code strs s,
      d.keyLookupInEpoch C ⟨n, e⟩ = some ⟨code, .proof ⟨[some ap], strs.map some, none⟩⟩ ∧
      strs.length = dirUpdates ops + 1 - e.toNat ∧ strs[0]? = some s ∧ Chained C (C.signPub sk) strs ∧
      (∀ j s, strs[j]? = some s → s.core.epoch.toNat = e.toNat + j ∧ log[e.toNat + j]?.map STR.toDir = some s) ∧
      ((∃ v, code = ReqSuccess ∧ ProofShows C vk n s.core.treeHash ap (some v)) ∨ keysShown ⟨code, .proof ⟨[some ap], [], none⟩⟩ = []) ∧
      (IndexSpread (fun k => (C.vrfProve vk k).1) (n :: regNames ops) →
        ∃ M, (absAfter ops).past[e.toNat]? = some M ∧ code = (if (M n).isSome then ReqSuccess else ReqNameNotFound) ∧
          ProofShows C vk n s.core.treeHash ap (M n))) := by
  obtain ⟨A, inv, hA, hl⟩ := dirAfter_inv C t0 sk vk size r₁ r₂ ops (n :: regNames ops) (fun _ hn => List.mem_cons_of_mem _ hn) inj hlt
    d log h
  have inj' : IndexInj (fun k => (C.vrfProve vk k).1) (n :: n :: regNames ops) := by
    intro a ha b hb e
    refine inj a ?_ b ?_ e
    · rcases List.mem_cons.mp ha with rfl | ha; exact List.mem_cons_self ..; exact ha
    · rcases List.mem_cons.mp hb with rfl | hb; exact List.mem_cons_self ..; exact hb
  obtain ⟨lo, r⟩ := retrievable inv.pad
  obtain ⟨_, h2, h3⟩ := keyLookupInEpoch_spec inv r ⟨n, e⟩ inj'
  have hsm := inv.pad.small
  constructor
  · intro hg
    exact h2 hn ((getSTR_none_lo r (show e.toNat < log.length by omega)).mp hg)
  · intro hg
    have hlo : lo ≤ e.toNat := by
      rcases Nat.lt_or_ge e.toNat lo with x | x
      · exact absurd (r.evicted e x) hg
      · exact x
    obtain ⟨ap, s, M, code, g1, g2, g3, g4, g5⟩ := h3 hn hlo (by show e.toNat < log.length; omega)
    simp only at g1 g2 g3 g4 g5
    refine ⟨ap, code, (log.drop e.toNat).map STR.toDir, s.toDir, ?_, ?_, ?_, ?_, ?_, ?_, ?_⟩
    · rw [g1]; rfl
    · simp; omega
    · rw [List.getElem?_map, List.getElem?_drop, Nat.add_zero, g2]; rfl
    · have := chained_part inv.pad e.toNat (log.length - e.toNat)
      rw [drop_take_all, inv.skEq] at this
      exact this
    · intro j s' hj
      rw [List.getElem?_map, List.getElem?_drop] at hj
      refine ⟨?_, hj⟩
      obtain ⟨x, hx, rfl⟩ := Option.map_eq_some_iff.mp hj
      show x.core.epoch.toNat = _
      rw [inv.pad.epoch _ _ hx, ofNat_toNat64]
      have := (List.getElem?_eq_some_iff.mp hx).1
      omega
    · cases hm : M n with
      | some v =>
        obtain ⟨c1, c2⟩ := g4 v hm
        exact Or.inl ⟨v, c1, c2⟩
      | none =>
        obtain ⟨⟨l, l1, l2⟩, _⟩ := g5 hm
        right; simp [keysShown, l1, l2]
    · intro spread
      have spread' : IndexSpread (fun k => (C.vrfProve vk k).1) (n :: n :: regNames ops) := by
        intro a ha b hb e
        refine spread a ?_ b ?_ e
        · rcases List.mem_cons.mp ha with rfl | ha; exact List.mem_cons_self ..; exact ha
        · rcases List.mem_cons.mp hb with rfl | hb; exact List.mem_cons_self ..; exact hb
      refine ⟨M, by rw [← hA spread]; exact g3, ?_⟩
      cases hm : M n with
      | some v => exact g4 v hm
      | none => exact (g5 hm).2 spread'

example (d : Directory) (log : List STR) (h : dirAfter Crypto.toy 5 [1] [2] 10 [3] [4] sampleDir = some (d, log)) :
    ∃ ap, ∃ (strs : List DirSTR) (s : DirSTR), d.keyLookupInEpoch Crypto.toy ⟨[0x61], 1⟩ = some ⟨ReqSuccess, .proof ⟨[some ap], strs.map some, none⟩⟩ ∧
      strs.length = 3 ∧ strs[0]? = some s ∧ ProofShows Crypto.toy [2] [0x61] s.core.treeHash ap (some [1, 2]) := by
  have e1 : (1 : UInt64).toNat = 1 := by decide
  have e3 : dirUpdates sampleDir = 3 := by decide
  obtain ⟨lo, r, hr⟩ := epochs_available Crypto.toy 5 [1] [2] 10 [3] [4] sampleDir (by decide) d log h
  obtain ⟨_, hl, _⟩ := dirAfter_padInv Crypto.toy 5 [1] [2] 10 [3] [4] sampleDir (by decide) d log h
  obtain ⟨hr1, hr2⟩ := hr (by decide)
  obtain ⟨_, h2⟩ := C28_lookup_in_epoch Crypto.toy 5 [1] [2] 10 [3] [4] sampleDir (by decide) d log h [0x61] (by decide)
    (spread_inj sampleDir_spread) 1 (by decide)
  have hav : d.pad.getSTR 1 ≠ none := by
    rw [r.get 1 (by omega) (by omega), List.getElem?_eq_getElem (by omega)]; simp
  obtain ⟨ap, code, strs, s, g1, g2, g3, _, _, _, g6⟩ := h2 hav
  obtain ⟨M, m1, m2, m3⟩ := g6 sampleDir_spread
  have hM : M [0x61] = some [1, 2] := by
    have : ((absAfter sampleDir).past[1]?.map fun M => M [0x61]) = some (some [1, 2]) := by decide +kernel
    rw [e1] at m1
    rw [m1] at this
    simpa using this
  rw [hM] at m2 m3
  refine ⟨ap, strs, s, ?_, by rw [g2, e3, e1], g3, m3⟩
  rw [g1, m2]; rfl

/-! ### C29 -/

/-- C29. After any history, for every name and every range `[s, t]` with `s` an existing epoch that can be looked up and `s ≤ t`,
`Monitor` succeeds with exactly the STRs of the epochs `s, ..., min t latest`, in order, signed and linked, and with one proof for
each, in the same order. The proof for an epoch in which the name was committed shows its key under the STR of that epoch.
For the other epochs it shows the absence provided the indices are spread over the first 248 bits (false without, as in
C28; exactly: `C29_exact`); otherwise no key. If epoch `s` was evicted, the answer is `ErrDirectory`. -/
theorem C29_monitor (C : Crypto) (t0 : UInt64) (sk vk : Bytes) (size : Nat) (r₁ r₂ : Bytes) (ops : List DirOp)
    (hlt : dirUpdates ops < 2 ^ 64) (d : Directory) (log : List STR) (h : dirAfter C t0 sk vk size r₁ r₂ ops = some (d, log))
    (n : Bytes) (hn : n ≠ []) (inj : IndexInj (fun k => (C.vrfProve vk k).1) (n :: regNames ops)) (s t : UInt64)
    (hs : s.toNat ≤ dirUpdates ops) (hst : s.toNat ≤ t.toNat) :
    (d.pad.getSTR s = none → d.monitor C ⟨n, s, t⟩ = some ⟨ErrDirectory, .none⟩) ∧
    (d.pad.getSTR s ≠ none → ∃ (aps : List AuthPath) (strs : List DirSTR),
      d.monitor C ⟨n, s, t⟩ = some ⟨ReqSuccess, .proof ⟨aps.map some, strs.map some, none⟩⟩ ∧
      strs.length = min t.toNat (dirUpdates ops) + 1 - s.toNat ∧ aps.length = strs.length ∧ Chained C (C.signPub sk) strs ∧
      (∀ j str, strs[j]? = some str → str.core.epoch.toNat = s.toNat + j ∧ log[s.toNat + j]?.map STR.toDir = some str) ∧
      (∀ j ap str, aps[j]? = some ap → strs[j]? = some str →
        ((∃ v, ProofShows C vk n str.core.treeHash ap (some v)) ∨ ∃ l, ap.leaf = some l ∧ l.value = none) ∧
        (IndexSpread (fun k => (C.vrfProve vk k).1) (n :: regNames ops) →
          ∃ M, (absAfter ops).past[s.toNat + j]? = some M ∧ ProofShows C vk n str.core.treeHash ap (M n)))) := by
  obtain ⟨A, inv, hA, hl⟩ := dirAfter_inv C t0 sk vk size r₁ r₂ ops (n :: regNames ops) (fun _ hn => List.mem_cons_of_mem _ hn) inj hlt
    d log h
  have inj' : IndexInj (fun k => (C.vrfProve vk k).1) (n :: n :: regNames ops) := by
    intro a ha b hb e
    refine inj a ?_ b ?_ e
    · rcases List.mem_cons.mp ha with rfl | ha; exact List.mem_cons_self ..; exact ha
    · rcases List.mem_cons.mp hb with rfl | hb; exact List.mem_cons_self ..; exact hb
  obtain ⟨lo, r⟩ := retrievable inv.pad
  obtain ⟨_, h2, h3⟩ := monitor_spec inv r ⟨n, s, t⟩ inj'
  have hsm := inv.pad.small
  constructor
  · intro hg
    exact h2 hn ((getSTR_none_lo r (show s.toNat < log.length by omega)).mp hg) hst
  · intro hg
    have hlo : lo ≤ s.toNat := by
      rcases Nat.lt_or_ge s.toNat lo with x | x
      · exact absurd (r.evicted s x) hg
      · exact x
    obtain ⟨aps, g1, g2, g3⟩ := h3 hn hlo (show s.toNat < log.length by omega) hst
    simp only at g1 g2 g3
    have hk : min t.toNat (log.length - 1) = min t.toNat (dirUpdates ops) := by rw [hl]; rfl
    rw [hk] at g1 g2
    have hlen : ((log.drop s.toNat).take (min t.toNat (dirUpdates ops) + 1 - s.toNat)).length =
        min t.toNat (dirUpdates ops) + 1 - s.toNat := by simp; omega
    have hget : ∀ j x, (((log.drop s.toNat).take (min t.toNat (dirUpdates ops) + 1 - s.toNat)).map STR.toDir)[j]? = some x →
        ∃ y, log[s.toNat + j]? = some y ∧ x = y.toDir := by
      intro j x hx
      rw [List.getElem?_map] at hx
      obtain ⟨y, hy, rfl⟩ := Option.map_eq_some_iff.mp hx
      rw [List.getElem?_take] at hy
      split at hy
      · rw [List.getElem?_drop] at hy; exact ⟨y, hy, rfl⟩
      · cases hy
    refine ⟨aps, ((log.drop s.toNat).take (min t.toNat (dirUpdates ops) + 1 - s.toNat)).map STR.toDir, g1, ?_, ?_, ?_, ?_, ?_⟩
    · rw [List.length_map, hlen]
    · rw [List.length_map, hlen, g2]
    · have := chained_part inv.pad s.toNat (min t.toNat (dirUpdates ops) + 1 - s.toNat)
      rw [inv.skEq] at this
      exact this
    · intro j x hx
      obtain ⟨y, hy, rfl⟩ := hget j x hx
      refine ⟨?_, by rw [hy]; rfl⟩
      show y.core.epoch.toNat = _
      rw [inv.pad.epoch _ _ hy, ofNat_toNat64]
      have := (List.getElem?_eq_some_iff.mp hy).1
      omega
    · intro j ap x hap hx
      obtain ⟨y, hy, rfl⟩ := hget j x hx
      have hjl := (List.getElem?_eq_some_iff.mp hy).1
      have hM : ∃ M, A.past[s.toNat + j]? = some M := ⟨_, List.getElem?_eq_getElem (by rw [inv.len]; exact hjl)⟩
      obtain ⟨M, hM⟩ := hM
      obtain ⟨p1, p2⟩ := g3 j ap y M hap hy hM
      constructor
      · cases hm : M n with
        | some v => exact Or.inl ⟨v, p1 v hm⟩
        | none => exact Or.inr (p2 hm).1
      · intro spread
        have spread' : IndexSpread (fun k => (C.vrfProve vk k).1) (n :: n :: regNames ops) := by
          intro a ha b hb e
          refine spread a ?_ b ?_ e
          · rcases List.mem_cons.mp ha with rfl | ha; exact List.mem_cons_self ..; exact ha
          · rcases List.mem_cons.mp hb with rfl | hb; exact List.mem_cons_self ..; exact hb
        refine ⟨M, by rw [← hA spread]; exact hM, ?_⟩
        cases hm : M n with
        | some v => exact p1 v hm
        | none => exact (p2 hm).2 spread'

/-- monitoring alice from epoch 0 to 9 gives four proofs, of absence and then of her key -/
example : ((dirAfter Crypto.toy 5 [1] [2] 10 [3] [4] sampleDir).bind fun x =>
    (x.1.monitor Crypto.toy ⟨[0x61], 0, 9⟩).map fun r => (r.error, keysShown r)) = some (ReqSuccess, [[1, 2], [1, 2], [1, 2]]) := by
  rw [dirAfterE_eq]; decide +kernel

example (d : Directory) (log : List STR) (h : dirAfter Crypto.toy 5 [1] [2] 10 [3] [4] sampleDir = some (d, log)) :
    ∃ (aps : List AuthPath) (strs : List DirSTR), d.monitor Crypto.toy ⟨[0x61], 0, 9⟩ =
      some ⟨ReqSuccess, .proof ⟨aps.map some, strs.map some, none⟩⟩ ∧ strs.length = 4 ∧ aps.length = 4 := by
  have e0 : (0 : UInt64).toNat = 0 := by decide
  have e9 : (9 : UInt64).toNat = 9 := by decide
  have e3 : dirUpdates sampleDir = 3 := by decide
  obtain ⟨lo, r, hr⟩ := epochs_available Crypto.toy 5 [1] [2] 10 [3] [4] sampleDir (by decide) d log h
  obtain ⟨_, hl, _⟩ := dirAfter_padInv Crypto.toy 5 [1] [2] 10 [3] [4] sampleDir (by decide) d log h
  obtain ⟨hr1, hr2⟩ := hr (by decide)
  have hav : d.pad.getSTR 0 ≠ none := by
    rw [r.get 0 (by omega) (by omega), List.getElem?_eq_getElem (by omega)]; simp
  obtain ⟨aps, strs, g1, g2, g3, _⟩ := (C29_monitor Crypto.toy 5 [1] [2] 10 [3] [4] sampleDir (by decide) d log h [0x61]
    (by decide) (spread_inj sampleDir_spread) 0 9 (by decide) (by decide)).2 hav
  rw [e3, e0, e9] at g2
  exact ⟨aps, strs, g1, g2, g3.trans g2⟩

/-! ### C30, C31 -/

/-- C30. After any history, `GetSTRHistory(s, t)` answers a malformed range (`s` not an existing epoch, or `t < s`) with
`ErrMalformedMessage`, and otherwise, if epoch `s` can still be looked up, with exactly the STRs of the epochs
`s, ..., min t latest` in order; if epoch `s` was evicted from the cache the call panics
(`C30_evicted_counterexample` is the general statement). -/
theorem C30_history (C : Crypto) (t0 : UInt64) (sk vk : Bytes) (size : Nat) (r₁ r₂ : Bytes) (ops : List DirOp)
    (hlt : dirUpdates ops < 2 ^ 64) (d : Directory) (log : List STR) (h : dirAfter C t0 sk vk size r₁ r₂ ops = some (d, log))
    (s t : UInt64) :
    ((dirUpdates ops < s.toNat ∨ t.toNat < s.toNat) → d.getSTRHistory ⟨s, t⟩ = some ⟨ErrMalformedMessage, .none⟩) ∧
    (s.toNat ≤ dirUpdates ops → s.toNat ≤ t.toNat → d.pad.getSTR s ≠ none → ∃ strs : List DirSTR,
      d.getSTRHistory ⟨s, t⟩ = some ⟨ReqSuccess, .history (strs.map some)⟩ ∧
      strs.length = min t.toNat (dirUpdates ops) + 1 - s.toNat ∧ Chained C (C.signPub sk) strs ∧
      (∀ j str, strs[j]? = some str → str.core.epoch.toNat = s.toNat + j ∧ log[s.toNat + j]?.map STR.toDir = some str)) ∧
    (s.toNat ≤ dirUpdates ops → s.toNat ≤ t.toNat → d.pad.getSTR s = none → Panics (d.getSTRHistory ⟨s, t⟩)) := by
  obtain ⟨inv, hl, hsk, _⟩ := dirAfter_padInv C t0 sk vk size r₁ r₂ ops hlt d log h
  obtain ⟨lo, r⟩ := retrievable inv
  obtain ⟨h1, h2, h3⟩ := history_spec inv r ⟨s, t⟩
  have hsm := inv.small
  refine ⟨?_, ?_, ?_⟩
  · intro hc
    refine h1 ?_
    show log.length ≤ s.toNat ∨ t.toNat < s.toNat
    omega
  · intro hs hst hg
    have hlo : lo ≤ s.toNat := by
      rcases Nat.lt_or_ge s.toNat lo with x | x
      · exact absurd (r.evicted s x) hg
      · exact x
    have g1 := h3 hlo (show s.toNat < log.length by omega) hst
    simp only at g1
    have hk : min t.toNat (log.length - 1) = min t.toNat (dirUpdates ops) := by rw [hl]; rfl
    rw [hk] at g1
    refine ⟨((log.drop s.toNat).take (min t.toNat (dirUpdates ops) + 1 - s.toNat)).map STR.toDir, ?_, ?_, ?_, ?_⟩
    · rw [g1, List.map_map]; rfl
    · simp; omega
    · have := chained_part inv s.toNat (min t.toNat (dirUpdates ops) + 1 - s.toNat)
      rw [hsk] at this
      exact this
    · intro j x hx
      rw [List.getElem?_map] at hx
      obtain ⟨y, hy, rfl⟩ := Option.map_eq_some_iff.mp hx
      rw [List.getElem?_take] at hy
      split at hy
      · rw [List.getElem?_drop] at hy
        refine ⟨?_, by rw [hy]; rfl⟩
        show y.core.epoch.toNat = _
        rw [inv.epoch _ _ hy, ofNat_toNat64]
        have := (List.getElem?_eq_some_iff.mp hy).1
        omega
      · cases hy
  · intro hs hst hg
    exact h2 ((getSTR_none_lo r (show s.toNat < log.length by omega)).mp hg) hst

/-- C31 at the directory: in every reachable state, every request is answered, except one kind: `GetSTRHistory` with a range that
starts at an epoch evicted from the cache panics. -/
theorem C31_directory_panics_iff (C : Crypto) (t0 : UInt64) (sk vk : Bytes) (size : Nat) (r₁ r₂ : Bytes) (ops : List DirOp)
    (hlt : dirUpdates ops < 2 ^ 64) (d : Directory) (log : List STR) (h : dirAfter C t0 sk vk size r₁ r₂ ops = some (d, log))
    (op : DirOp) :
    Panics (d.step C op) ↔ ∃ req, op = .getSTRHistory req ∧ req.startEpoch ≤ req.endEpoch ∧ d.pad.getSTR req.startEpoch = none := by
  obtain ⟨inv, _⟩ := dirAfter_padInv C t0 sk vk size r₁ r₂ ops hlt d log h
  exact step_panics_iff inv op

/-- C31 at the directory: a history without history requests never panics. -/
theorem C31_history_runs (C : Crypto) (t0 : UInt64) (sk vk : Bytes) (size : Nat) (r₁ r₂ : Bytes) (ops : List DirOp)
    (hlt : dirUpdates ops < 2 ^ 64) (hno : ∀ req, DirOp.getSTRHistory req ∉ ops) :
    ∃ d log, dirAfter C t0 sk vk size r₁ r₂ ops = some (d, log) := by
  have key : ∀ k, k ≤ ops.length → ∃ d log, dirAfter C t0 sk vk size r₁ r₂ (ops.take k) = some (d, log) := by
    intro k
    induction k with
    | zero =>
      intro _
      obtain ⟨d0, h0, _⟩ := new_dir_inv C t0 sk vk size r₁ r₂ []
      exact ⟨d0, [d0.pad.latest], by simp [dirAfter, h0, Directory.runLog]⟩
    | succ k ih =>
      intro hk
      obtain ⟨d, log, h⟩ := ih (by omega)
      have hsplit : dirUpdates ops = dirUpdates (ops.take k) + dirUpdates (ops.drop k) := by
        rw [← dirUpdates_append, List.take_append_drop]
      have htake : ops.take (k + 1) = ops.take k ++ [ops[k]] := by rw [List.take_append_getElem]
      cases hs : d.step C ops[k] with
      | none =>
        obtain ⟨req, e, _⟩ := (C31_directory_panics_iff C t0 sk vk size r₁ r₂ _ (by omega) d log h _).mp hs
        exact absurd (e ▸ List.getElem_mem _) (hno req)
      | some x =>
        refine ⟨x.1, log ++ (ops[k]).issued x.1, ?_⟩
        rw [htake, dirAfter_append, h]
        simp [Directory.runLog, hs]
  have := key ops.length (Nat.le_refl _)
  rwa [List.take_length] at this

/-- C30 and C31 are false as stated: for every cache length `size ≥ 2`, after any history with at least `size` updates (for
example `size` updates and nothing else, which runs by `C31_history_runs`), the request for the STR of epoch 0 panics. -/
theorem C30_evicted_counterexample (C : Crypto) (t0 : UInt64) (sk vk : Bytes) (size : Nat) (hsz : 2 ≤ size) (r₁ r₂ : Bytes)
    (ops : List DirOp) (hlt : dirUpdates ops < 2 ^ 64) (hu : size ≤ dirUpdates ops) (d : Directory) (log : List STR)
    (h : dirAfter C t0 sk vk size r₁ r₂ ops = some (d, log)) (t : UInt64) :
    Panics (d.step C (.getSTRHistory ⟨0, t⟩)) := by
  obtain ⟨lo, r, hr⟩ := epochs_available C t0 sk vk size r₁ r₂ ops hlt d log h
  obtain ⟨_, hl, _⟩ := dirAfter_padInv C t0 sk vk size r₁ r₂ ops hlt d log h
  obtain ⟨h1, _⟩ := hr hsz
  have e0 : (0 : UInt64).toNat = 0 := by decide
  refine (C31_directory_panics_iff C t0 sk vk size r₁ r₂ ops hlt d log h _).mpr ⟨⟨0, t⟩, rfl, ?_, r.evicted 0 (by omega)⟩
  rw [UInt64.le_iff_toNat_le, e0]; exact Nat.zero_le _

/-- concretely: cache length 2, three epochs passed -/
example : ∃ d log, dirAfter Crypto.toy 5 [1] [2] 2 [3] [4] sampleDir = some (d, log) ∧
    Panics (d.step Crypto.toy (.getSTRHistory ⟨0, 0⟩)) := by
  obtain ⟨d, log, h⟩ := C31_history_runs Crypto.toy 5 [1] [2] 2 [3] [4] sampleDir (by decide) (by intro req; simp [sampleDir])
  exact ⟨d, log, h, C30_evicted_counterexample Crypto.toy 5 [1] [2] 2 (by decide) [3] [4] sampleDir (by decide) (by decide) d log h 0⟩

/-- and the other half of C30, on the same state: the history from epoch 2 on -/
example : ((dirAfter Crypto.toy 5 [1] [2] 2 [3] [4] sampleDir).bind fun x =>
    (x.1.getSTRHistory ⟨2, 9⟩).map fun r => match r.resp with
      | .history strs => (strs.filterMap id).map fun s => s.core.epoch
      | _ => []) = some [2, 3] := by
  rw [dirAfterE_eq]; decide +kernel

end Coniks.Props
