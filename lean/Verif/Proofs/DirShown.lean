import Verif.Proofs.DirReads
/-
Which keys an answer shows, and where they come from.
-/
namespace Coniks
open Spec

theorem keyLookup_none {C sk vk ns d log A} (inv : DirInv C sk vk ns d log A) (req : KeyLookupRequest)
    (inj : IndexInj (fun k => (C.vrfProve vk k).1) (req.username :: ns)) (hv : A.merged req.username = none)
    (resp : Response) (h : d.keyLookup C req = some resp) : keysShown resp = [] := by
  obtain ⟨resp', h', hc⟩ := keyLookup_spec inv req inj
  rw [h] at h'
  cases h'
  have hp : A.pending req.username = none ∧ A.committed req.username = none := by
    unfold AbsDir.merged at hv
    cases hp : A.pending req.username with
    | some w => rw [hp] at hv; cases hv
    | none => rw [hp] at hv; exact ⟨rfl, hv⟩
  rcases hc with ⟨hc, _, ap, tb, l, h1, h2, h3, h4⟩ | ha
  · rcases h4 with rfl | ⟨w, hw, rfl⟩
    · simp [keysShown, h1, h2, h3]
    · rw [hp.1] at hw; cases hw
  · unfold Answers at ha
    split at ha
    · rw [ha]; simp [keysShown]
    · obtain ⟨ap, e, hs⟩ := ha
      obtain ⟨l, h1, h2⟩ := hs.value
      rw [e]
      unfold AbsDir.lookupAnswer at h2 ⊢
      rw [hp.1, hp.2] at h2 ⊢
      by_cases hu : req.username = []
      · simp [hu] at h2 ⊢
        simp [keysShown, h1, h2]
      · simp [hu] at h2 ⊢
        simp [keysShown, h1, h2]

theorem keyLookupInEpoch_none {C sk vk ns d log A} (inv : DirInv C sk vk ns d log A) (req : KeyLookupInEpochRequest)
    (inj : IndexInj (fun k => (C.vrfProve vk k).1) (req.username :: ns)) (hv : A.merged req.username = none)
    (resp : Response) (h : d.keyLookupInEpoch C req = some resp) : keysShown resp = [] := by
  obtain ⟨lo, r⟩ := retrievable inv.pad
  obtain ⟨h1, h2, h3⟩ := keyLookupInEpoch_spec inv r req inj
  by_cases a : req.username = [] ∨ log.length ≤ req.epoch.toNat
  · rw [h1 a] at h
    cases h; simp [keysShown, newErrorResponse]
  · have a1 : req.username ≠ [] := fun e => a (Or.inl e)
    have a2 : req.epoch.toNat < log.length := by
      rcases Nat.lt_or_ge req.epoch.toNat log.length with x | x
      · exact x
      · exact absurd (Or.inr x) a
    rcases Nat.lt_or_ge req.epoch.toNat lo with b | b
    · rw [h2 a1 b] at h
      cases h; simp [keysShown, newErrorResponse]
    · obtain ⟨ap, s, M, code, g1, g2, g3, g4, g5⟩ := h3 a1 b a2
      rw [g1] at h
      cases h
      cases hm : M req.username with
      | none =>
        obtain ⟨⟨l, e1, e2⟩, _⟩ := g5 hm
        simp [keysShown, newKeyLookupInEpochProof, e1, e2]
      | some w =>
        have := merged_of_committed inv.disj (inv.mono M (List.mem_of_getElem? g3) _ w hm)
        rw [hv] at this; cases this

theorem monitor_none {C sk vk ns d log A} (inv : DirInv C sk vk ns d log A) (req : MonitoringRequest)
    (inj : IndexInj (fun k => (C.vrfProve vk k).1) (req.username :: ns)) (hv : A.merged req.username = none)
    (resp : Response) (h : d.monitor C req = some resp) : ∀ k, k ∉ keysShown resp := by
  obtain ⟨lo, r⟩ := retrievable inv.pad
  obtain ⟨h1, h2, h3⟩ := monitor_spec inv r req inj
  by_cases a : req.username = [] ∨ log.length ≤ req.startEpoch.toNat ∨ req.endEpoch.toNat < req.startEpoch.toNat
  · rw [h1 a] at h
    cases h; simp [keysShown, newErrorResponse]
  · simp only [not_or, Nat.not_le, Nat.not_lt] at a
    obtain ⟨a1, a2, a3⟩ := a
    rcases Nat.lt_or_ge req.startEpoch.toNat lo with b | b
    · rw [h2 a1 b a3] at h
      cases h; simp [keysShown, newErrorResponse]
    · obtain ⟨aps, g1, g2, g3⟩ := h3 a1 b a2 a3
      rw [g1] at h
      cases h
      intro k hk
      simp only [keysShown, newMonitoringProof, Option.toList_none, List.map_nil, List.append_nil, List.mem_filterMap,
        List.mem_map] at hk
      obtain ⟨l, ⟨ap, ⟨_, ⟨ap', hap, rfl⟩, e⟩, hl⟩, hk⟩ := hk
      simp only [id_eq, Option.some.injEq] at e
      subst e
      obtain ⟨j, hj, hj'⟩ := List.getElem_of_mem hap
      have hlt : req.startEpoch.toNat + j < log.length := by omega
      have hM : ∃ M, A.past[req.startEpoch.toNat + j]? = some M :=
        ⟨_, List.getElem?_eq_getElem (l := A.past) (i := req.startEpoch.toNat + j) (by rw [inv.len]; exact hlt)⟩
      obtain ⟨M, hM⟩ := hM
      obtain ⟨p1, p2⟩ := g3 j ap' _ _ (by rw [List.getElem?_eq_getElem hj, hj']) (List.getElem?_eq_getElem hlt) hM
      cases hm : M req.username with
      | none =>
        obtain ⟨⟨l', e1, e2⟩, _⟩ := p2 hm
        rw [hl] at e1
        simp only [Option.some.injEq] at e1
        subst e1
        rw [hk] at e2; cases e2
      | some w =>
        have := merged_of_committed inv.disj (inv.mono M (List.mem_of_getElem? hM) _ w hm)
        rw [hv] at this; cases this

/-- a read shows only the key of the name -/
theorem read_shows {C sk vk ns d log A} (inv : DirInv C sk vk ns d log A) (op : DirOp) (n : Bytes) (hop : reqName op = some n)
    (hr : ∀ rnd req, op ≠ .register rnd req)
    (inj : IndexInj (fun k => (C.vrfProve vk k).1) (n :: ns)) (d' : Directory) (resp : Response) (hs : d.step C op = some (d', some resp)) :
    ∀ k ∈ keysShown resp, A.merged n = some k := by
  intro k hk
  cases op with
  | register rnd req => exact absurd rfl (hr rnd req)
  | keyLookup req =>
    simp only [reqName, Option.some.injEq] at hop
    subst hop
    obtain ⟨r2, g1, g2⟩ := Option.map_eq_some_iff.mp hs
    simp only [Prod.mk.injEq, Option.some.injEq] at g2
    obtain ⟨rfl, rfl⟩ := g2
    cases hm : A.merged req.username with
    | none => rw [keyLookup_none inv req inj hm _ g1] at hk; exact nomatch hk
    | some v => rw [keyLookup_keys inv req inj v hm _ g1 k hk]
  | keyLookupInEpoch req =>
    simp only [reqName, Option.some.injEq] at hop
    subst hop
    obtain ⟨r2, g1, g2⟩ := Option.map_eq_some_iff.mp hs
    simp only [Prod.mk.injEq, Option.some.injEq] at g2
    obtain ⟨rfl, rfl⟩ := g2
    cases hm : A.merged req.username with
    | none => rw [keyLookupInEpoch_none inv req inj hm _ g1] at hk; exact nomatch hk
    | some v => rw [keyLookupInEpoch_keys inv req inj v hm _ g1 k hk]
  | monitor req =>
    simp only [reqName, Option.some.injEq] at hop
    subst hop
    obtain ⟨r2, g1, g2⟩ := Option.map_eq_some_iff.mp hs
    simp only [Prod.mk.injEq, Option.some.injEq] at g2
    obtain ⟨rfl, rfl⟩ := g2
    cases hm : A.merged req.username with
    | none => exact absurd hk (monitor_none inv req inj hm _ g1 k)
    | some v => rw [monitor_keys inv req inj v hm _ g1 k hk]
  | getSTRHistory _ => cases hop
  | update => cases hop
  | setPolicies _ => cases hop

/-- a directory holds what was registered -/
theorem merged_origin (C : Crypto) (t0 : UInt64) (sk vk : Bytes) (size : Nat) (r₁ r₂ : Bytes) (ns : List Bytes)
    (inj : IndexInj (fun k => (C.vrfProve vk k).1) ns) :
    ∀ (post pre : List DirOp), (∀ n ∈ regNames (pre ++ post), n ∈ ns) → dirUpdates (pre ++ post) < 2 ^ 64 →
    ∀ d₀ log₀ A₀, dirAfter C t0 sk vk size r₁ r₂ pre = some (d₀, log₀) → log₀.length = dirUpdates pre + 1 → DirInv C sk vk ns d₀ log₀ A₀ →
      (∀ n k, A₀.merged n = some k → ∃ a rnd b d₁ log₁ d₂ resp, pre = a ++ .register rnd ⟨n, k⟩ :: b ∧
        dirAfter C t0 sk vk size r₁ r₂ a = some (d₁, log₁) ∧ d₁.register C rnd ⟨n, k⟩ = some (d₂, resp) ∧ resp.error = ReqSuccess) →
    ∀ d log, dirAfter C t0 sk vk size r₁ r₂ (pre ++ post) = some (d, log) →
    ∃ A, DirInv C sk vk ns d log A ∧
      (∀ n k, A.merged n = some k → ∃ a rnd b d₁ log₁ d₂ resp, pre ++ post = a ++ .register rnd ⟨n, k⟩ :: b ∧
        dirAfter C t0 sk vk size r₁ r₂ a = some (d₁, log₁) ∧ d₁.register C rnd ⟨n, k⟩ = some (d₂, resp) ∧ resp.error = ReqSuccess) := by
  intro post
  induction post with
  | nil =>
    intro pre hn hlt d₀ log₀ A₀ h₀ hl inv ho d log h
    rw [List.append_nil] at h ⊢
    rw [h₀] at h; cases h
    exact ⟨A₀, inv, ho⟩
  | cons op post ih =>
    intro pre hn hlt d₀ log₀ A₀ h₀ hl inv ho d log h
    have e : pre ++ op :: post = (pre ++ [op]) ++ post := by simp
    rw [e] at hn hlt h ⊢
    have hm : ∃ d₁ log₁, dirAfter C t0 sk vk size r₁ r₂ (pre ++ [op]) = some (d₁, log₁) := by
      rw [dirAfter_append] at h
      obtain ⟨⟨a, b⟩, h1, _⟩ := Option.bind_eq_some_iff.mp h
      exact ⟨a, b, h1⟩
    obtain ⟨d₁, log₁, h₁⟩ := hm
    have hu : dirUpdates (pre ++ [op]) < 2 ^ 64 := by rw [dirUpdates_append] at hlt; omega
    have hl₁ : log₁.length = dirUpdates (pre ++ [op]) + 1 := by
      obtain ⟨_, _, _, x⟩ := dirAfter_inv C t0 sk vk size r₁ r₂ (pre ++ [op]) ns
        (fun n hn' => hn n (by rw [regNames_append]; simp [hn'])) inj hu d₁ log₁ h₁
      exact x
    have hstep : ∃ r, d₀.step C op = some (d₁, r) ∧ log₁ = log₀ ++ op.issued d₁ := by
      rw [dirAfter_append, h₀] at h₁
      simp only [Option.bind_some, Directory.runLog] at h₁
      obtain ⟨⟨x, r⟩, h1, h2⟩ := Option.bind_eq_some_iff.mp h₁
      simp only [Option.some.injEq, Prod.mk.injEq] at h2
      obtain ⟨rfl, rfl⟩ := h2
      exact ⟨r, h1, rfl⟩
    obtain ⟨r, hstep, hlog⟩ := hstep
    have old : ∀ n k, A₀.merged n = some k → ∃ a rnd b d₂ log₂ d₃ resp, pre ++ [op] = a ++ .register rnd ⟨n, k⟩ :: b ∧
        dirAfter C t0 sk vk size r₁ r₂ a = some (d₂, log₂) ∧ d₂.register C rnd ⟨n, k⟩ = some (d₃, resp) ∧ resp.error = ReqSuccess := by
      intro n k hk
      obtain ⟨a, rnd, b, d2, l2, d3, resp, e1, e2⟩ := ho n k hk
      exact ⟨a, rnd, b ++ [op], d2, l2, d3, resp, by rw [e1]; simp, e2⟩
    have keep : ∀ A₁, DirInv C sk vk ns d₁ log₁ A₁ → (∀ n, A₁.merged n = A₀.merged n) →
        ∃ A, DirInv C sk vk ns d log A ∧
      (∀ n k, A.merged n = some k → ∃ a rnd b d₁ log₁ d₂ resp, (pre ++ [op]) ++ post = a ++ .register rnd ⟨n, k⟩ :: b ∧
        dirAfter C t0 sk vk size r₁ r₂ a = some (d₁, log₁) ∧ d₁.register C rnd ⟨n, k⟩ = some (d₂, resp) ∧ resp.error = ReqSuccess) := by
      intro A₁ inv₁ hA
      exact ih (pre ++ [op]) hn hlt d₁ log₁ A₁ h₁ hl₁ inv₁ (fun n k hk => old n k (by rw [← hA n]; exact hk)) d log h
    have stay : d₁ = d₀ → op.issued d₁ = [] → ∃ A, DirInv C sk vk ns d log A ∧
      (∀ n k, A.merged n = some k → ∃ a rnd b d₁ log₁ d₂ resp, (pre ++ [op]) ++ post = a ++ .register rnd ⟨n, k⟩ :: b ∧
        dirAfter C t0 sk vk size r₁ r₂ a = some (d₁, log₁) ∧ d₁.register C rnd ⟨n, k⟩ = some (d₂, resp) ∧ resp.error = ReqSuccess) := by
      intro e1 e2
      refine keep A₀ ?_ fun _ => rfl
      rw [hlog, e2, List.append_nil, e1]; exact inv
    have same : ∀ {x : Go Response}, (x.map fun r => (d₀, some r)) = some (d₁, r) → d₁ = d₀ := by
      intro x hx
      obtain ⟨y, _, hy⟩ := Option.map_eq_some_iff.mp hx
      exact (congrArg Prod.fst hy).symm
    cases op with
    | register rnd req =>
      obtain ⟨d2, resp, g1, g2, _⟩ := register_spec inv rnd req (hn _ (by rw [regNames_append, regNames_append]; simp [regNames])) inj
      simp only [Directory.step, g1, Option.map_some, Option.some.injEq, Prod.mk.injEq] at hstep
      obtain ⟨rfl, rfl⟩ := hstep
      rcases g2 with ⟨e1, _, _⟩ | ⟨inv₁, _, hnew, ok, _⟩
      · exact stay e1 rfl
      · simp only [DirOp.issued, List.append_nil] at hlog
        subst hlog
        refine ih (pre ++ [.register rnd req]) hn hlt d2 log₁ _ h₁ hl₁ inv₁ ?_ d log h
        intro n k hk
        by_cases hnn : n = req.username
        · subst hnn
          have : k = req.key := by
            simp only [AbsDir.merged, AbsDir.add, if_true] at hk
            cases hk; rfl
          subst this
          exact ⟨pre, rnd, [], d₀, log₁, d2, resp, by simp, h₀, g1, ok⟩
        · refine old n k ?_
          simp only [AbsDir.merged, AbsDir.add, if_neg hnn] at hk
          exact hk
    | keyLookup req => exact stay (same hstep) rfl
    | keyLookupInEpoch req => exact stay (same hstep) rfl
    | monitor req => exact stay (same hstep) rfl
    | getSTRHistory req => exact stay (same hstep) rfl
    | update =>
      simp only [Directory.step, Option.some.injEq, Prod.mk.injEq] at hstep
      obtain ⟨rfl, rfl⟩ := hstep
      have hlt' : log₀.length < 2 ^ 64 := by
        rw [dirUpdates_append] at hu
        simp only [dirUpdates] at hu
        omega
      refine keep A₀.nextEpoch (by rw [hlog]; exact update_dir_inv inv hlt') fun n => ?_
      simp [AbsDir.merged, AbsDir.nextEpoch]
    | setPolicies t =>
      simp only [Directory.step, Option.some.injEq, Prod.mk.injEq] at hstep
      obtain ⟨rfl, rfl⟩ := hstep
      refine keep A₀ ?_ fun _ => rfl
      rw [hlog]
      simp only [DirOp.issued, List.append_nil]
      exact setPolicies_inv inv t

theorem merged_registered (C : Crypto) (t0 : UInt64) (sk vk : Bytes) (size : Nat) (r₁ r₂ : Bytes) (ns : List Bytes)
    (inj : IndexInj (fun k => (C.vrfProve vk k).1) ns) (ops : List DirOp) (hn : ∀ n ∈ regNames ops, n ∈ ns) (hlt : dirUpdates ops < 2 ^ 64)
    (d : Directory) (log : List STR) (h : dirAfter C t0 sk vk size r₁ r₂ ops = some (d, log)) :
    ∃ A, DirInv C sk vk ns d log A ∧
      (∀ n k, A.merged n = some k → ∃ a rnd b d₁ log₁ d₂ resp, ops = a ++ .register rnd ⟨n, k⟩ :: b ∧
        dirAfter C t0 sk vk size r₁ r₂ a = some (d₁, log₁) ∧ d₁.register C rnd ⟨n, k⟩ = some (d₂, resp) ∧ resp.error = ReqSuccess) := by
  obtain ⟨d0, h0, inv0, _⟩ := new_dir_inv C t0 sk vk size r₁ r₂ ns
  refine merged_origin C t0 sk vk size r₁ r₂ ns inj ops [] hn hlt d0 [d0.pad.latest] _ ?_ rfl inv0 ?_ d log h
  · simp [dirAfter, h0, Directory.runLog]
  · intro n k hk
    simp [AbsDir.merged, AbsDir.init] at hk

end Coniks
