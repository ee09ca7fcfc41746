import Verif.Proofs.RefsLock
import Verif.Props.Refs
import Verif.Props.Server
/-
C75, under the lock of the server: an answer is marshalled after its goroutine has given back the lock (application/serverbase.go:234-241),
while other goroutines, writers included, are inside.
-/
namespace Coniks.Props
open Coniks Spec

theorem exec_cells {T : Nat → Task RDir (Go (Option RResponse))} (hg : ∀ i, AllocatesOnly (T i).body)
    {s s' : Sys RDir (Go (Option RResponse))} (e : LockEv) (h : s.exec T e = .ok s')
    (hr : ∀ i p, s.phase i = .running p → AllocatesOnly p) :
    (∀ i p, s'.phase i = .running p → AllocatesOnly p) ∧ Grew s.mem.mem s'.mem.mem := by
  cases e with
  | lock i =>
    simp only [Sys.exec] at h
    cases hi : s.phase i with
    | idle =>
      rw [hi] at h
      dsimp only at h
      cases hl : s.lock.take (T i).acquire with
      | ok l =>
        rw [hl] at h
        simp only [Outcome.ok.injEq] at h
        subst h
        refine ⟨?_, Grew.refl _⟩
        intro j p hp
        by_cases hj : j = i
        · subst hj; simp only [setPhase_same, Phase.running.injEq] at hp; subst hp; exact hg j
        · simp only [setPhase_ne _ _ _ _ hj] at hp; exact hr j p hp
      | blocked => rw [hl] at h; cases h
      | fatal => rw [hl] at h; cases h
    | running p => rw [hi] at h; cases h
    | done r => rw [hi] at h; cases h
  | step i =>
    simp only [Sys.exec] at h
    cases hi : s.phase i with
    | idle => rw [hi] at h; cases h
    | done r => rw [hi] at h; cases h
    | running q =>
      rw [hi] at h
      cases q with
      | ret r => cases h
      | act w n =>
        simp only [Outcome.ok.injEq] at h
        subst h
        have hq := hr i _ hi
        refine ⟨?_, hq.1 _⟩
        intro j p hp
        by_cases hj : j = i
        · subst hj; simp only [setPhase_same, Phase.running.injEq] at hp; subst hp; exact hq.2 _
        · simp only [setPhase_ne _ _ _ _ hj] at hp; exact hr j p hp
  | unlock i =>
    simp only [Sys.exec] at h
    cases hi : s.phase i with
    | idle => rw [hi] at h; cases h
    | done r => rw [hi] at h; cases h
    | running q =>
      rw [hi] at h
      cases q with
      | act w n => cases h
      | ret r =>
        dsimp only at h
        cases hl : s.lock.give (T i).release with
        | blocked => rw [hl] at h; cases h
        | fatal => rw [hl] at h; cases h
        | ok l =>
          rw [hl] at h
          simp only [Outcome.ok.injEq] at h
          subst h
          refine ⟨?_, Grew.refl _⟩
          intro j p hp
          by_cases hj : j = i
          · subst hj; simp only [setPhase_same] at hp; cases hp
          · simp only [setPhase_ne _ _ _ _ hj] at hp; exact hr j p hp

theorem execAll_cells {T : Nat → Task RDir (Go (Option RResponse))} (hg : ∀ i, AllocatesOnly (T i).body) (es : List LockEv) :
    ∀ {s s' : Sys RDir (Go (Option RResponse))}, s.execAll T es = .ok s' → (∀ i p, s.phase i = .running p → AllocatesOnly p) →
    (∀ i p, s'.phase i = .running p → AllocatesOnly p) ∧ Grew s.mem.mem s'.mem.mem := by
  induction es with
  | nil =>
    intro s s' h hr
    simp only [Sys.execAll, Outcome.ok.injEq] at h
    subst h
    exact ⟨hr, Grew.refl _⟩
  | cons e es ih =>
    intro s s' h hr
    simp only [Sys.execAll] at h
    cases he : s.exec T e with
    | ok s1 =>
      rw [he] at h
      obtain ⟨a1, a2⟩ := exec_cells hg e he hr
      obtain ⟨b1, b2⟩ := ih h a1
      exact ⟨b1, Grew.trans a2 b2⟩
    | blocked => rw [he] at h; cases h
    | fatal => rw [he] at h; cases h

/-- C75, under the lock. The goroutines of a server with a new directory run their sections in any decomposition into steps (`bodies`), in
any interleaving `es` the lock allows; `s` is the state at any point, possibly with a writer in the middle of its section. Take any
goroutine that has left its section, as the `k`-th: reading the answer it holds now, after the unlock, in the memory as it is now, gives
the answer of a directory without shared memory that has run the sections before the `k`-th one after the other. Assumed of the code of a
section: it computes what the section should, readers do not write, and no step overwrites a policy, tree root, binding or key slice
that exists already (`AllocatesOnly`). -/
theorem C75_marshal (C : Crypto) (t0 : UInt64) (sk vk : Bytes) (size : Nat) (r₁ r₂ : Bytes) (d0 : RDir)
    (h0 : newRDir C emptyMem t0 vk sk size true (some r₁) (some r₂) = some d0)
    (jobs : Nat → Job) (bodies : Nat → Prog RDir (Go (Option RResponse))) (hsane : ∀ i, Job.Sane (jobs i))
    (himp : ∀ i, Implements (bodies i) (fun d => (jobs i).rapply C d))
    (hro : ∀ i rnd req, jobs i = .request rnd req → (req.type = 1 ∨ req.type = 2 ∨ req.type = 3) → (bodies i).ReadOnly)
    (hg : ∀ i, AllocatesOnly (bodies i)) (es : List LockEv) (s : Sys RDir (Go (Option RResponse)))
    (hexec : (Sys.initial d0).execAll (rTask jobs bodies) es = .ok s)
    (hlt : ((finished es).countP fun i => jobs i = .epochUpdate) < 2 ^ 64) (k i : Nat) (hk : (finished es)[k]? = some i) :
    ∃ D log D' v r, dirAfter C t0 sk vk size r₁ r₂ (((finished es).take k).flatMap fun i => Job.ops (jobs i)) = some (D, log) ∧
      (jobs i).apply C D = some (D', v) ∧ s.phase i = .done (some r) ∧ readResult s.mem.mem r = some v := by
  have hn := new_sim (fun t => t) C emptyMem t0 vk sk size true (some r₁) (some r₂)
  rw [h0] at hn
  cases hD : newDirectory C t0 vk sk size true (some r₁) (some r₂) with
  | none => rw [hD] at hn; exact hn.elim
  | some D0 =>
    rw [hD] at hn
    obtain ⟨R, _⟩ := hn
    have hd0 : dirAfter C t0 sk vk size r₁ r₂ [] = some (D0, [D0.pad.latest]) := by simp only [dirAfter, hD]; rfl
    have D := r_disciplined hro
    obtain ⟨act, inv⟩ := execAll_inv D d0 es s hexec
    obtain ⟨Dk, logk, Dk', v, r, j1, j2, j3, j4⟩ := r_history C t0 sk vk size r₁ r₂ jobs bodies himp hg (finished es) [] d0 D0 _ hd0 R
      (fun i _ => hsane i) (by have : dirUpdates [] = 0 := rfl; omega) k i hk
    obtain ⟨r', k1, k2⟩ := inv.results k i hk
    rw [j3] at k1
    cases k1
    refine ⟨Dk, logk, Dk', v, r, j1, j2, k2, ?_⟩
    have hgr := execAll_grows D hg es (inv_initial (rTask jobs bodies) d0) hexec (by intro i p h; cases h) (Grew.refl _)
    exact readResult_grows (by simpa using hgr) j4

/-- C75, for the code of the sections as modelled step by step (`Job.rcode`): no assumptions on it are left. -/
theorem C75_code (C : Crypto) (t0 : UInt64) (sk vk : Bytes) (size : Nat) (r₁ r₂ : Bytes) (d0 : RDir)
    (h0 : newRDir C emptyMem t0 vk sk size true (some r₁) (some r₂) = some d0)
    (jobs : Nat → Job) (hsane : ∀ i, Job.Sane (jobs i)) (es : List LockEv) (s : Sys RDir (Go (Option RResponse)))
    (hexec : (Sys.initial d0).execAll (rTask jobs fun i => (jobs i).rcode C) es = .ok s)
    (hlt : ((finished es).countP fun i => jobs i = .epochUpdate) < 2 ^ 64) (k i : Nat) (hk : (finished es)[k]? = some i) :
    ∃ D log D' v r, dirAfter C t0 sk vk size r₁ r₂ (((finished es).take k).flatMap fun i => Job.ops (jobs i)) = some (D, log) ∧
      (jobs i).apply C D = some (D', v) ∧ s.phase i = .done (some r) ∧ readResult s.mem.mem r = some v :=
  C75_marshal C t0 sk vk size r₁ r₂ d0 h0 jobs _ hsane (fun i => rcode_implements C (jobs i))
    (fun i rnd req e ht => by simp only [e]; exact rcode_readOnly C rnd req ht) (fun i => rcode_grows C (jobs i)) es s hexec hlt k i hk

/-- C75, marshalling is not one step either: between any two points of an execution of that code, whatever the goroutines do, no policy,
tree root, temporary binding or key slice in memory changes. So a marshaller that looks at some of the answer now and at the rest later
finds what it would have found at once. -/
theorem C75_cells (C : Crypto) (d0 : RDir) (jobs : Nat → Job) (es es' : List LockEv) (s s' : Sys RDir (Go (Option RResponse)))
    (h : (Sys.initial d0).execAll (rTask jobs fun i => (jobs i).rcode C) es = .ok s)
    (h' : s.execAll (rTask jobs fun i => (jobs i).rcode C) es' = .ok s') :
    (∀ (a : Nat) (x : Policies), s.mem.mem.pols[a]? = some x → s'.mem.mem.pols[a]? = some x) ∧
    (∀ (a : Nat) (x : RSTR), s.mem.mem.strs[a]? = some x → s'.mem.mem.strs[a]? = some x) ∧
    (∀ (a : Nat) (x : RTB), s.mem.mem.tbs[a]? = some x → s'.mem.mem.tbs[a]? = some x) ∧
    (∀ (a : Nat) (x : Bytes), s.mem.mem.bufs[a]? = some x → s'.mem.mem.bufs[a]? = some x) := by
  have hg : ∀ i, AllocatesOnly (rTask jobs (fun i => (jobs i).rcode C) i).body := fun i => rcode_grows C (jobs i)
  obtain ⟨a1, _⟩ := execAll_cells hg es h (by intro i p h; cases h)
  obtain ⟨_, g⟩ := execAll_cells hg es' h' a1
  exact ⟨fun _ _ e => prefix_getElem?_some g.1 e, fun _ _ e => prefix_getElem?_some g.2.1 e,
    fun _ _ e => prefix_getElem?_some g.2.2.1 e, fun _ _ e => prefix_getElem?_some g.2.2.2 e⟩

/-- the hypotheses are met: a lookup runs and leaves with its answer; then an update is in the middle of its section, with the new tree
root allocated and the bindings not yet deleted, when the answer is read -/
example : ∃ d0 s, newRDir Crypto.toy emptyMem 5 [2] [1] 10 true (some [3]) (some [4]) = some d0 ∧ (∀ i, Job.Sane (sampleJobs i)) ∧
    (Sys.initial d0).execAll (rTask sampleJobs fun i => (sampleJobs i).rcode Crypto.toy)
      [.lock 0, .step 0, .unlock 0, .lock 2, .step 2, .step 2] = .ok s ∧
    finished [.lock 0, .step 0, .unlock 0, .lock 2, .step 2, .step 2] = [0] ∧ s.lock.writer = true := by
  cases hd : newRDir Crypto.toy emptyMem 5 [2] [1] 10 true (some [3]) (some [4]) with
  | none =>
    have : (newRDir Crypto.toy emptyMem 5 [2] [1] 10 true (some [3]) (some [4])).isSome = true := by decide +kernel
    rw [hd] at this; cases this
  | some d0 =>
    have hs : ∀ i, Job.Sane (sampleJobs i) := by
      intro i
      unfold sampleJobs
      repeat' split
      all_goals simp [Job.Sane, NonNil]
    have hu : ∃ x, d0.pad.update Crypto.toy d0.mem (some d0.policies) = some x := by
      have : ((newRDir Crypto.toy emptyMem 5 [2] [1] 10 true (some [3]) (some [4])).bind fun d0 =>
        d0.pad.update Crypto.toy d0.mem (some d0.policies)).isSome = true := by decide +kernel
      rw [hd] at this
      exact Option.isSome_iff_exists.mp this
    obtain ⟨⟨m, p⟩, hu⟩ := hu
    have h2 : ∃ s, (Sys.initial d0).execAll (rTask sampleJobs fun i => (sampleJobs i).rcode Crypto.toy)
        [.lock 0, .step 0, .unlock 0, .lock 2, .step 2, .step 2] = .ok s ∧ s.lock.writer = true := by
      simp [Sys.execAll, Sys.exec, Sys.initial, rTask, sampleJobs, Job.rcode, Job.acquire, Job.release, lockMode, unlockMode, RWLock.take,
        RWLock.give, setPhase, rUpdateBody, hu, RegistrationType, KeyLookupType, KeyLookupInEpochType, MonitoringType]
    obtain ⟨s, h2, h3⟩ := h2
    exact ⟨d0, s, rfl, hs, h2, rfl, h3⟩

end Coniks.Props
