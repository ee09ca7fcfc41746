import Verif.Proofs.Restart
import Verif.Props.AuditLog
import Verif.Props.Session
import Verif.Proofs.EvalDir
/-
C67: the key server is restarted with its old configuration and keys. Nothing is stored, so this is `New` once more: a second history under the
same two keys.
-/
namespace Coniks.Props
open Coniks Spec

theorem dirAfter_first (C : Crypto) (t0 : UInt64) (sk vk : Bytes) (size : Nat) (r₁ r₂ : Bytes) (ops : List DirOp) (d : Directory)
    (log : List STR) (h : dirAfter C t0 sk vk size r₁ r₂ ops = some (d, log)) : ∃ s, log[0]? = some s ∧ s.core.previousSTRHash = C.hash r₂ := by
  have h0 : ∃ d0, dirAfter C t0 sk vk size r₁ r₂ [] = some (d0, [d0.pad.latest]) ∧ d0.pad.latest.core.previousSTRHash = C.hash r₂ := by
    obtain ⟨d0, h0, _⟩ := new_dir_inv C t0 sk vk size r₁ r₂ []
    refine ⟨d0, by simp only [dirAfter, h0, Option.bind_some, Directory.runLog], ?_⟩
    simp only [newDirectory, newPAD, newMerkleTree, Crypto.makeRand, Crypto.digest, Option.map_some, if_true, Option.some.injEq] at h0
    rw [← h0]
    simp [PAD.updateInternal, newSTR]
  obtain ⟨d0, h0, hp⟩ := h0
  obtain ⟨ext, rfl⟩ := dirAfter_prefix C t0 sk vk size r₁ r₂ [] ops d log h d0 _ h0
  exact ⟨d0.pad.latest, rfl, hp⟩

/-- Two lives of a key server: the keys are the same, the rest of the configuration may be changed, and the random bytes drawn for the first
STR differ. The hash does not collide on the signatures of the STRs, and one signature does not fit two contents. -/
structure TwoLives (C : Crypto) (sk vk : Bytes) (t0 t0' : UInt64) (size size' : Nat) (r₁ r₂ r₁' r₂' : Bytes) (ops ops' : List DirOp)
    (d d' : Directory) (log log' : List STR) : Prop where
  first : dirAfter C t0 sk vk size r₁ r₂ ops = some (d, log)
  second : dirAfter C t0' sk vk size' r₁' r₂' ops' = some (d', log')
  short : dirUpdates ops < 2 ^ 64
  short' : dirUpdates ops' < 2 ^ 64
  fresh : C.hash r₂ ≠ C.hash r₂'
  noColl : NoCollision C.hash ((log ++ log').map fun s => s.core.signature)
  bind : SigBinding C (C.signPub sk) ((log ++ log').map STR.toDir)

theorem TwoLives.signed {C : Crypto} {sk vk : Bytes} {t0 : UInt64} {size : Nat} {r₁ r₂ : Bytes} {ops : List DirOp} {d : Directory}
    {log : List STR} (h : dirAfter C t0 sk vk size r₁ r₂ ops = some (d, log)) (hlt : dirUpdates ops < 2 ^ 64) :
    ∀ s ∈ log, Signed C (C.signPub sk) s.toDir := by
  intro s hs
  obtain ⟨inv, _, hk, _⟩ := dirAfter_padInv C t0 sk vk size r₁ r₂ ops hlt d log h
  refine ⟨s.serialize, rfl, ?_⟩
  show C.verify _ _ s.core.signature = true
  rw [inv.sig s hs, hk]; exact C.verify_sign _ _

theorem TwoLives.differ {C : Crypto} {sk vk : Bytes} {t0 t0' : UInt64} {size size' : Nat} {r₁ r₂ r₁' r₂' : Bytes} {ops ops' : List DirOp}
    {d d' : Directory} {log log' : List STR} (T : TwoLives C sk vk t0 t0' size size' r₁ r₂ r₁' r₂' ops ops' d d' log log') :
    ∀ (e : Nat) s s', log[e]? = some s → log'[e]? = some s' → s.core.signature ≠ s'.core.signature := by
  obtain ⟨inv, _, hk, _⟩ := dirAfter_padInv C t0 sk vk size r₁ r₂ ops T.short d log T.first
  obtain ⟨inv', _, hk', _⟩ := dirAfter_padInv C t0' sk vk size' r₁' r₂' ops' T.short' d' log' T.second
  have prev : ∀ s ∈ log, ∀ s' ∈ log', s.core.signature = s'.core.signature → s.core.epoch = s'.core.epoch ∧
      s.core.previousSTRHash = s'.core.previousSTRHash := by
    intro s hs s' hs' e
    have hser := T.bind s.toDir (List.mem_map_of_mem (List.mem_append_left _ hs)) s'.toDir (List.mem_map_of_mem (List.mem_append_right _ hs')) e
      (TwoLives.signed T.first T.short s hs) (TwoLives.signed T.second T.short' s' hs')
    obtain ⟨t, ht⟩ := dirAfter_keys C _ _ _ _ _ _ _ _ _ T.first s hs
    obtain ⟨t', ht'⟩ := dirAfter_keys C _ _ _ _ _ _ _ _ _ T.second s' hs'
    obtain ⟨f1, _, _, _, _, f6⟩ := signed_fields (s := s.toDir) (p := s.ad) (t := s') rfl hser
    have l1 : s.core.treeHash.length = 32 := by
      have ok := inv.snap s hs
      rw [ok.core, ok.hash]; exact pureHash_length C _ _
    have l2 : s'.core.treeHash.length = 32 := by
      have ok := inv'.snap s' hs'
      rw [ok.core, ok.hash]; exact pureHash_length C _ _
    refine ⟨f1, (f6 (l1.trans l2.symm) (by rw [ht, ht']; rfl) ?_).1⟩
    show s.core.previousSTRHash.length = _
    rw [dirAfter_prevHash C _ _ _ _ _ _ _ T.short _ _ T.first s hs, dirAfter_prevHash C _ _ _ _ _ _ _ T.short' _ _ T.second s' hs']
  intro e
  induction e with
  | zero =>
    intro s s' hs hs' eq
    obtain ⟨a, ha, ha2⟩ := dirAfter_first C _ _ _ _ _ _ _ _ _ T.first
    obtain ⟨b, hb, hb2⟩ := dirAfter_first C _ _ _ _ _ _ _ _ _ T.second
    rw [hs] at ha; rw [hs'] at hb
    cases ha; cases hb
    exact T.fresh (by rw [← ha2, ← hb2]; exact (prev s (List.mem_of_getElem? hs) s' (List.mem_of_getElem? hs') eq).2)
  | succ e ih =>
    intro s s' hs hs' eq
    have l1 : e < log.length := by have := (List.getElem?_eq_some_iff.mp hs).1; omega
    have l2 : e < log'.length := by have := (List.getElem?_eq_some_iff.mp hs').1; omega
    have p1 := List.getElem?_eq_getElem l1
    have p2 := List.getElem?_eq_getElem l2
    refine ih _ _ p1 p2 (T.noColl _ (List.mem_map_of_mem (List.mem_append_left _ (List.mem_of_getElem? p1))) _
      (List.mem_map_of_mem (List.mem_append_right _ (List.mem_of_getElem? p2))) ?_)
    rw [← inv.chain e _ s p1 hs, ← inv'.chain e _ s' p2 hs']
    exact (prev s (List.mem_of_getElem? hs) s' (List.mem_of_getElem? hs') eq).2

/-- C67: no STR of the second life is an STR of the first, or the successor of one, however long the two lives are; nor the other way round. -/
theorem C67_fork (C : Crypto) (sk vk : Bytes) (t0 t0' : UInt64) (size size' : Nat) (r₁ r₂ r₁' r₂' : Bytes) (ops ops' : List DirOp)
    (d d' : Directory) (log log' : List STR) (T : TwoLives C sk vk t0 t0' size size' r₁ r₂ r₁' r₂' ops ops' d d' log log')
    (s s' : STR) (hs : s ∈ log) (hs' : s' ∈ log') :
    s.toDir ≠ s'.toDir ∧ ¬ Linked C s.toDir s'.toDir ∧ ¬ Linked C s'.toDir s.toDir := by
  obtain ⟨inv, _, _, _⟩ := dirAfter_padInv C t0 sk vk size r₁ r₂ ops T.short d log T.first
  obtain ⟨inv', _, _, _⟩ := dirAfter_padInv C t0' sk vk size' r₁' r₂' ops' T.short' d' log' T.second
  obtain ⟨e, he⟩ := List.getElem?_of_mem hs
  obtain ⟨e', he'⟩ := List.getElem?_of_mem hs'
  have b1 := (List.getElem?_eq_some_iff.mp he).1
  have b2 := (List.getElem?_eq_some_iff.mp he').1
  have c1 := inv.small
  have c2 := inv'.small
  have ep := inv.epoch e s he
  have ep' := inv'.epoch e' s' he'
  have mem : ∀ (i : Nat) x, log[i]? = some x → x.core.signature ∈ (log ++ log').map fun s => s.core.signature :=
    fun i x h => List.mem_map_of_mem (f := fun s : STR => s.core.signature) (List.mem_append_left _ (List.mem_of_getElem? h))
  have mem' : ∀ (i : Nat) x, log'[i]? = some x → x.core.signature ∈ (log ++ log').map fun s => s.core.signature :=
    fun i x h => List.mem_map_of_mem (f := fun s : STR => s.core.signature) (List.mem_append_right _ (List.mem_of_getElem? h))
  have nxt : ∀ i : Nat, UInt64.ofNat i + 1 = UInt64.ofNat (i + 1) := fun i => by rw [UInt64.ofNat_add]; rfl
  refine ⟨fun h => ?_, fun h => ?_, fun h => ?_⟩
  · have h1 : s.core = s'.core := congrArg DirSTR.core h
    have : e = e' := ofNat64_inj (by omega) (by omega) (by rw [← ep, ← ep', h1])
    subst this
    exact T.differ e s s' he he' (by rw [h1])
  · have h1 : s'.core.epoch = s.core.epoch + 1 := h.epoch
    rw [ep, ep', nxt] at h1
    by_cases hw : e + 1 < 2 ^ 64
    · have : e' = e + 1 := ofNat64_inj (by omega) hw h1
      subst this
      have p := List.getElem?_eq_getElem (show e < log'.length by omega)
      refine T.differ e s _ he p (T.noColl _ (mem e s he) _ (mem' e _ p) ?_)
      rw [← inv'.chain e _ s' p he']; exact h.hash.symm
    · have : e + 1 = 2 ^ 64 := by omega
      have h2 : s'.core.previousEpoch = s.core.epoch := h.previousEpoch
      rw [this] at h1
      have h3 : e' = 0 := ofNat64_inj (by omega) (by omega) (by rw [h1]; rfl)
      rw [inv'.prev e' s' he', ep, h3] at h2
      have := ofNat64_inj (by omega) (by omega) h2
      omega
  · have h1 : s.core.epoch = s'.core.epoch + 1 := h.epoch
    rw [ep, ep', nxt] at h1
    by_cases hw : e' + 1 < 2 ^ 64
    · have : e = e' + 1 := ofNat64_inj (by omega) hw h1
      subst this
      have p := List.getElem?_eq_getElem (show e' < log.length by omega)
      refine T.differ e' _ s' p he' (T.noColl _ (mem e' _ p) _ (mem' e' s' he') ?_)
      rw [← inv.chain e' _ s p he]; exact h.hash
    · have : e' + 1 = 2 ^ 64 := by omega
      have h2 : s.core.previousEpoch = s'.core.epoch := h.previousEpoch
      rw [this] at h1
      have h3 : e = 0 := ofNat64_inj (by omega) (by omega) (by rw [h1]; rfl)
      rw [inv.prev e s he, ep', h3] at h2
      have := ofNat64_inj (by omega) (by omega) h2
      omega

/-- C67: an auditor or client that holds an STR of the first life refuses every range that begins with an STR of the second. -/
theorem C67_auditor_refuses (C : Crypto) (sk vk : Bytes) (t0 t0' : UInt64) (size size' : Nat) (r₁ r₂ r₁' r₂' : Bytes) (ops ops' : List DirOp)
    (d d' : Directory) (log log' : List STR) (T : TwoLives C sk vk t0 t0' size size' r₁ r₂ r₁' r₂' ops ops' d d' log log')
    (a : AudState) (hk : a.signKey = C.signPub sk) (s s' : STR) (hs : s ∈ log) (hs' : s' ∈ log') (ha : a.verified = s.toDir)
    (rest : List (Option DirSTR)) : a.auditDirectory C (some s'.toDir :: rest) = some (some CheckBadSTR) := by
  obtain ⟨h1, h2, _⟩ := C67_fork C sk vk t0 t0' size size' r₁ r₂ r₁' r₂' ops ops' d d' log log' T s s' hs hs'
  have := checkBad_of (C := C) (a := a) (s := s'.toDir) (by rw [ha]; exact fun e => h1 e.symm) (by rw [ha]; exact h2)
    (by rw [hk]; exact TwoLives.signed T.second T.short' s' hs')
  simp [AudState.auditDirectory, this]

/-- C67: a client that talked to the first life never gets through again: for ever, whatever it asks the restarted directory, the answer is
refused with `CheckBadSTR` (or is the directory's own error), and its state does not change. -/
theorem C67_client_refuses (C : Crypto) (sk vk : Bytes) (t0 t0' : UInt64) (size size' : Nat) (r₁ r₂ r₁' r₂' : Bytes) (ops pre : List DirOp)
    (ses : List SesOp) (d d₀ d' : Directory) (log log₀ log' : List STR)
    (T : TwoLives C sk vk t0 t0' size size' r₁ r₂ r₁' r₂' ops (pre ++ ses.map SesOp.dirOp) d d' log log')
    (h₀ : dirAfter C t0' sk vk size' r₁' r₂' pre = some (d₀, log₀))
    (spread : IndexSpread (fun k => (C.vrfProve vk k).1) (regNames pre ++ sesNames ses))
    (cc : Client) (hk : cc.aud.signKey = C.signPub sk) (s : STR) (hs : s ∈ log) (hcc : cc.aud.verified = s.toDir) :
    runSession C d₀ cc ses = some (d', cc, refusals (absAfter pre) ses) := by
  have inj := spread_inj spread
  have hlt := T.short'
  rw [dirUpdates_append] at hlt
  have h := T.second
  rw [dirAfter_append, h₀, Option.bind_some] at h
  obtain ⟨A, inv, hA, hl⟩ := dirAfter_inv C t0' sk vk size' r₁' r₂' pre (regNames pre ++ sesNames ses)
    (fun n hn => List.mem_append_left _ hn) inj (by omega) d₀ log₀ h₀
  rw [hA spread] at inv
  refine session_refused C sk vk _ inj spread cc ses d₀ log₀ (absAfter pre) inv (fun n hn => List.mem_append_right _ hn) (by omega) d' log' h ?_
  intro s' hs'
  obtain ⟨h1, h2, _⟩ := C67_fork C sk vk t0 t0' size size' r₁ r₂ r₁' r₂' ops _ d d' log log' T s s' hs hs'
  exact checkBad_of (by rw [hcc]; exact fun e => h1 e.symm) (by rw [hcc]; exact h2) (by rw [hk]; exact TwoLives.signed T.second T.short' s' hs')

theorem absAfter_none (n : Bytes) : ∀ (ops : List DirOp), n ∉ regNames ops → (absAfter ops).committed n = none ∧ (absAfter ops).pending n = none := by
  have key : ∀ (ops : List DirOp) (A : AbsDir), n ∉ regNames ops → A.committed n = none → A.pending n = none →
      (ops.foldl AbsDir.step A).committed n = none ∧ (ops.foldl AbsDir.step A).pending n = none := by
    intro ops
    induction ops with
    | nil => intro A _ h1 h2; exact ⟨h1, h2⟩
    | cons op ops ih =>
      intro A hn h1 h2
      have hn' : n ∉ regNames ops := by
        intro h
        cases op <;> simp only [regNames] at hn <;> first | exact hn h | exact hn (List.mem_cons_of_mem _ h)
      refine ih (A.step op) hn' ?_ ?_
      · cases op <;> simp only [AbsDir.step]
        case register rnd req => split <;> exact h1
        case update => simp [AbsDir.nextEpoch, AbsDir.merged, h1, h2]
        all_goals exact h1
      · cases op <;> simp only [AbsDir.step]
        case register rnd req =>
          split
          · have : n ≠ req.username := fun e => hn (by simp [regNames, e])
            simp [AbsDir.add, this, h2]
          · exact h2
        case update => rfl
        all_goals exact h2
  exact fun ops h => key ops AbsDir.init h rfl rfl

/-- C67: what was registered in the first life is gone in the second, whatever it was: a name that was not registered again is proved absent,
and whoever asks first gets it, with any key. -/
theorem C67_forgotten (C : Crypto) (sk vk : Bytes) (t0' : UInt64) (size' : Nat) (r₁' r₂' : Bytes) (ops' : List DirOp)
    (hlt : dirUpdates ops' < 2 ^ 64) (d' : Directory) (log' : List STR) (h : dirAfter C t0' sk vk size' r₁' r₂' ops' = some (d', log'))
    (n : Bytes) (hn : n ≠ []) (not : n ∉ regNames ops') (spread : IndexSpread (fun k => (C.vrfProve vk k).1) (n :: regNames ops')) :
    (∃ resp, d'.keyLookup C ⟨n⟩ = some resp ∧ Shows C sk vk n d'.latestSTR resp (ReqNameNotFound, none, none)) ∧
    ∀ rnd key, key ≠ [] → ∃ d'' resp, d'.register C (some rnd) ⟨n, key⟩ = some (d'', resp) ∧
      Shows C sk vk n d'.latestSTR resp (ReqSuccess, none, some key) := by
  obtain ⟨⟨resp, h1, h2⟩, h3⟩ := C25_responses_spread C t0' sk vk size' r₁' r₂' ops' hlt d' log' h n spread
  obtain ⟨a1, a2⟩ := absAfter_none n ops' not
  refine ⟨⟨resp, h1, ?_⟩, fun rnd key hk => ?_⟩
  · have e : (absAfter ops').lookupAnswer n = (ReqNameNotFound, none, none) := by simp [AbsDir.lookupAnswer, hn, a1, a2]
    rw [e] at h2
    exact h2
  · obtain ⟨d'', resp, g1, g2⟩ := h3 (some rnd) key
    have e : (absAfter ops').registerAnswer (some rnd) n key = (ReqSuccess, none, some key) := by
      simp [AbsDir.registerAnswer, hn, hk, a1, a2]
    rw [e] at g2
    exact ⟨d'', resp, g1, g2⟩

/-- C67: an audit log that has the first life under the identity of its first STR takes the second for another directory: it has another
identity, and `InitHistory` accepts it beside the first, under the same key. -/
theorem C67_second_identity (C : Crypto) (sk vk : Bytes) (t0 t0' : UInt64) (size size' : Nat) (r₁ r₂ r₁' r₂' : Bytes) (ops ops' : List DirOp)
    (d d' : Directory) (log log' : List STR) (T : TwoLives C sk vk t0 t0' size size' r₁ r₂ r₁' r₂' ops ops' d d' log log')
    (s s' : STR) (hs : log[0]? = some s) (hs' : log'[0]? = some s') (l : AuditLog) (addr : Bytes) (rest : List DirSTR)
    (unknown : l (dirId C s'.toDir) = none) :
    dirId C s.toDir ≠ dirId C s'.toDir ∧
    ∃ l', l.initHistory C addr (C.signPub sk) (some s'.toDir :: rest.map some) = some (l', none) ∧
      l' (dirId C s.toDir) = l (dirId C s.toDir) ∧ l' (dirId C s'.toDir) ≠ none := by
  have hd := T.differ 0 s s' hs hs'
  have hne : dirId C s.toDir ≠ dirId C s'.toDir := by
    intro e
    have e2 : C.hash s.core.signature = C.hash s'.core.signature := congrArg Subtype.val e
    exact hd (T.noColl _ (List.mem_map_of_mem (f := fun s : STR => s.core.signature) (List.mem_append_left _ (List.mem_of_getElem? hs))) _
      (List.mem_map_of_mem (f := fun s : STR => s.core.signature) (List.mem_append_right _ (List.mem_of_getElem? hs'))) e2)
  obtain ⟨inv', _⟩ := dirAfter_padInv C t0' sk vk size' r₁' r₂' ops' T.short' d' log' T.second
  have he : s'.toDir.core.epoch = 0 := inv'.epoch 0 s' hs'
  obtain ⟨l', g1, g2⟩ := (C43_no_reinit C l addr (C.signPub sk) s'.toDir (rest.map some) he).2 unknown (by
    intro x hx e
    obtain ⟨y, _, rfl⟩ := List.mem_map.mp hx
    nomatch e)
  refine ⟨hne, l', g1, ?_, g2⟩
  exact (C43_isolation C (dirId C s.toDir) [.init addr (C.signPub sk) (some s'.toDir :: rest.map some)] (by
    intro op hop
    rw [List.mem_singleton.mp hop]
    simp only [LogOp.about, ne_eq, Option.some.injEq]
    exact fun e => hne e.symm) l l' (by simp [logAfter, logStep, g1])).1

/-- alice registers, an epoch passes; the server is restarted; a client of the first life looks alice up, and somebody else takes her name -/
def afterRestart : List SesOp :=
  [.lookup [0x61] none, .dir (.register (some [8]) ⟨[0x61], [5]⟩), .dir .update, .lookup [0x61] (some [9, 9]), .register (some [6]) [0x62] [3]]

theorem toy_two_lives : ∃ d d' log log', TwoLives Crypto.toy [1] [2] 5 6 10 3 [3] [4] [7] [8] toyOps ([] ++ afterRestart.map SesOp.dirOp) d d' log log' := by
  have key : ((dirAfter Crypto.toy 5 [1] [2] 10 [3] [4] toyOps).bind fun (x : Directory × List STR) =>
      (dirAfter Crypto.toy 6 [1] [2] 3 [7] [8] ([] ++ afterRestart.map SesOp.dirOp)).map fun (y : Directory × List STR) =>
      decide (Crypto.toy.hash [4] ≠ Crypto.toy.hash [8] ∧ NoCollision Crypto.toy.hash ((x.2 ++ y.2).map fun s => s.core.signature) ∧
        ∀ a ∈ x.2 ++ y.2, ∀ b ∈ x.2 ++ y.2, a.core.signature = b.core.signature → a.toDir.serialize = b.toDir.serialize)) =
      some true := by
    rw [dirAfterE_eq, dirAfterE_eq]; decide +kernel
  obtain ⟨⟨d, log⟩, h1, key⟩ := Option.bind_eq_some_iff.mp key
  obtain ⟨⟨d', log'⟩, h2, key⟩ := Option.map_eq_some_iff.mp key
  obtain ⟨k1, k2, k3⟩ := of_decide_eq_true key
  exact ⟨d, d', log, log', h1, h2, by decide, by decide, k1, k2, fun a ha b hb e _ _ => by
    obtain ⟨a, ha', rfl⟩ := List.mem_map.mp ha
    obtain ⟨b, hb', rfl⟩ := List.mem_map.mp hb
    exact k3 a ha' b hb' e⟩

/-- the hypotheses of `C67_client_refuses` are met, and hence of `C67_fork`, `C67_auditor_refuses` and `C67_second_identity` -/
example : ∃ d₀ cc d', runSession Crypto.toy d₀ cc afterRestart = some (d', cc, [some CheckBadSTR, some CheckBadSTR, some CheckBadSTR]) := by
  obtain ⟨d, d', log, log', T⟩ := toy_two_lives
  obtain ⟨d₀, log₀, h₀⟩ : ∃ d₀ log₀, dirAfter Crypto.toy 6 [1] [2] 3 [7] [8] [] = some (d₀, log₀) := by
    have h := T.second
    rw [dirAfter_append] at h
    obtain ⟨⟨d₀, log₀⟩, h₀, _⟩ := Option.bind_eq_some_iff.mp h
    exact ⟨d₀, log₀, h₀⟩
  obtain ⟨s, hs, _⟩ := dirAfter_first _ _ _ _ _ _ _ _ _ _ T.first
  have := C67_client_refuses Crypto.toy [1] [2] 5 6 10 3 [3] [4] [7] [8] toyOps [] afterRestart d d₀ d' log log₀ log' T h₀ (by decide +kernel)
    ⟨⟨Crypto.toy.signPub [1], s.toDir⟩, fun _ => none, true, fun _ => none⟩ rfl s (List.mem_of_getElem? hs) rfl
  exact ⟨d₀, _, d', this⟩

/-- and those of `C67_forgotten`: alice's name is free in the second life -/
example : ∃ d' log', dirAfter Crypto.toy 6 [1] [2] 3 [7] [8] [.register (some [6]) ⟨[0x62], [3]⟩, .update] = some (d', log') ∧
    ([0x61] : Bytes) ∉ regNames [.register (some [6]) ⟨[0x62], [3]⟩, .update] ∧
    IndexSpread (fun k => (Crypto.toy.vrfProve [2] k).1) ([0x61] :: regNames [.register (some [6]) ⟨[0x62], [3]⟩, .update]) := by
  have hrun : (dirAfter Crypto.toy 6 [1] [2] 3 [7] [8] [.register (some [6]) ⟨[0x62], [3]⟩, .update]).isSome = true := by
    rw [dirAfterE_eq]; decide +kernel
  obtain ⟨⟨d, log⟩, hd⟩ := Option.isSome_iff_exists.mp hrun
  exact ⟨d, log, hd, by decide, by decide +kernel⟩

end Coniks.Props
