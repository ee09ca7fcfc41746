import Verif.Proofs.Refs
import Verif.Proofs.Server
/-
Answers read outside the lock.
-/
namespace Coniks
open Spec

theorem Grew.refl (m : Mem) : Grew m m := ⟨List.prefix_refl _, List.prefix_refl _, List.prefix_refl _, List.prefix_refl _⟩
theorem Grew.trans {a b c : Mem} (h : Grew a b) (k : Grew b c) : Grew a c :=
  ⟨h.1.trans k.1, h.2.1.trans k.2.1, h.2.2.1.trans k.2.2.1, h.2.2.2.trans k.2.2.2⟩

theorem prefix_getElem?_some {α : Type} {l l' : List α} (h : l <+: l') {i : Nat} {x : α} (e : l[i]? = some x) : l'[i]? = some x := by
  obtain ⟨t, rfl⟩ := h
  exact getElem?_append_some t e

theorem Grew.ext {m m' : Mem} (h : Grew m m') (f : TB → TB) : MemExt f m m' :=
  ⟨fun _ _ e => prefix_getElem?_some h.1 e, fun _ _ e => prefix_getElem?_some h.2.1 e, fun _ _ e => prefix_getElem?_some h.2.2.1 e,
   fun _ v e => ⟨v, prefix_getElem?_some h.2.2.2 e, fun _ _ => rfl⟩⟩

/-! ### Sections, one after the other -/

theorem ReadSim.write {f : TB → TB} {d : RDir} {D : Directory} (R : RRel f d D) {o : Go RResponse} {w : Go Response} (h : ReadSim f d.mem o w) :
    match o.map (fun r => (d, r)), w.map (fun v => (D, v)) with
    | none, none => True
    | some (d', r), some (D', v) => RRel f d' D' ∧ RReads f d'.mem r v
    | _, _ => False := by
  cases o with
  | none =>
    cases w with
    | none => trivial
    | some w => exact h.elim
  | some o =>
    cases w with
    | none => exact h.elim
    | some w => exact ⟨R, h⟩

theorem handle_sim {f : TB → TB} {d : RDir} {D : Directory} (R : RRel f d D) (C : Crypto) (rnd : Option Bytes) (req : Request) :
    match d.handleRequests C rnd req, D.handleRequests C rnd req with
    | none, none => True
    | some (d', r), some (D', v) => RRel f d' D' ∧ RReads f d'.mem r v
    | _, _ => False := by
  obtain ⟨t, p⟩ := req
  unfold RDir.handleRequests Directory.handleRequests
  dsimp only
  have bad : RRel f d D ∧ RReads f d.mem (rErrorResponse ErrMalformedMessage) (newErrorResponse ErrMalformedMessage) := ⟨R, error_sim f _ _⟩
  by_cases h0 : t = RegistrationType
  · rw [if_pos h0, if_pos h0]
    cases p with
    | registration msg =>
      dsimp only
      have ext : MemExt f d.mem (d.decodeKey msg.key).mem :=
        ⟨fun _ _ h => h, fun _ _ h => h, fun _ _ h => h, fun _ v h => ⟨v, getElem?_append_some _ h, fun _ _ => rfl⟩⟩
      have R' : RRel f (d.decodeKey msg.key) D := R.grow ext
      have hk : (d.decodeKey msg.key).mem.bufs[d.mem.bufs.length]? = some msg.key := by
        show (d.mem.bufs ++ [msg.key])[d.mem.bufs.length]? = _
        rw [List.getElem?_append_right (Nat.le_refl _), Nat.sub_self]; rfl
      have hs := register_sim R' C rnd msg.username d.mem.bufs.length msg.key hk
      generalize (d.decodeKey msg.key).register C rnd msg.username d.mem.bufs.length = o at hs ⊢
      have e : D.register C rnd msg = D.register C rnd ⟨msg.username, msg.key⟩ := rfl
      rw [e]
      generalize D.register C rnd ⟨msg.username, msg.key⟩ = w at hs ⊢
      cases o with
      | none =>
        cases w with
        | none => trivial
        | some w => exact hs.elim
      | some o =>
        cases w with
        | none => exact hs.elim
        | some w => exact ⟨hs.1, hs.2.2.2⟩
    | nilRegistration => trivial
    | _ => exact bad
  · rw [if_neg h0, if_neg h0]
    by_cases h1 : t = KeyLookupType
    · rw [if_pos h1, if_pos h1]
      cases p with
      | keyLookup msg => exact (keyLookup_sim R C msg).write R
      | nilKeyLookup => trivial
      | _ => exact bad
    · rw [if_neg h1, if_neg h1]
      by_cases h2 : t = KeyLookupInEpochType
      · rw [if_pos h2, if_pos h2]
        cases p with
        | keyLookupInEpoch msg => exact (keyLookupInEpoch_sim R C msg).write R
        | nilKeyLookupInEpoch => trivial
        | _ => exact bad
      · rw [if_neg h2, if_neg h2]
        by_cases h3 : t = MonitoringType
        · rw [if_pos h3, if_pos h3]
          cases p with
          | monitoring msg => exact (monitor_sim R C msg).write R
          | nilMonitoring => trivial
          | _ => exact bad
        · rw [if_neg h3, if_neg h3]
          exact bad

/-- the result of a section, read -/
def ResultReads (m : Mem) (r : Option RResponse) (v : Option Response) : Prop := readResult m r = some v

theorem reads_id {m : Mem} {r : RResponse} {v : Response} (h : RReads (fun t => t) m r v) : r.read m = some v := by
  obtain ⟨v', h1, h2⟩ := h
  have e : ∀ x : Response, mapTB (fun t => t) x = x := by
    intro x
    obtain ⟨a, b⟩ := x
    cases b with
    | proof p => simp [mapTB]
    | _ => rfl
  rw [e, e] at h2
  rw [h1, h2]

theorem job_sim {d : RDir} {D : Directory} (R : RRel (fun t => t) d D) (C : Crypto) (j : Job) :
    match j.rapply C d, j.apply C D with
    | none, none => True
    | some (d', r), some (D', v) => RRel (fun t => t) d' D' ∧ readResult d'.mem r = some v
    | _, _ => False := by
  cases j with
  | request rnd req =>
    have h := handle_sim R C rnd req
    simp only [Job.rapply, Job.apply]
    generalize d.handleRequests C rnd req = o at h ⊢
    generalize D.handleRequests C rnd req = w at h ⊢
    cases o with
    | none =>
      cases w with
      | none => trivial
      | some w => exact h.elim
    | some o =>
      cases w with
      | none => exact h.elim
      | some w =>
        refine ⟨h.1, ?_⟩
        show (o.2.read o.1.mem).map some = _
        rw [reads_id h.2]
        rfl
  | epochUpdate =>
    obtain ⟨d', h1, R', _, _⟩ := update_sim R C
    simp only [Job.rapply, Job.apply, h1, Option.map_some]
    exact ⟨R', rfl⟩
  | reload file =>
    simp only [Job.rapply, Job.apply, Directory.updatePolicies]
    cases loadConfig file with
    | none => trivial
    | some o =>
      cases o with
      | none => exact ⟨R, rfl⟩
      | some t =>
        obtain ⟨d', h1, R', _, _⟩ := setPolicies_sim R t
        simp only [h1, Option.map_some]
        exact ⟨R', rfl⟩

theorem run_grows {ρ : Type} {p : Prog RDir ρ} (h : AllocatesOnly p) (d : RDir) : Grew d.mem (p.run d).1.mem := by
  induction p generalizing d with
  | ret r => exact Grew.refl _
  | act w n ih => exact Grew.trans (h.1 d) (ih d (h.2 d) (w d))

theorem readResult_grows {m m' : Mem} (h : Grew m m') {r : Option RResponse} {v : Option Response} (e : readResult m r = some v) :
    readResult m' r = some v := by
  cases r with
  | none => exact e
  | some r =>
    simp only [readResult, Option.map_eq_some_iff] at e ⊢
    obtain ⟨x, e1, e2⟩ := e
    exact ⟨x, reads_id (RReads.ext (Grew.ext h _) ⟨x, e1, rfl⟩), e2⟩

/-! ### The memory at any point of a schedule -/

theorem seqRun_grows {T : Nat → Task RDir (Go (Option RResponse))} (hg : ∀ i, AllocatesOnly (T i).body) (l : List Nat) (d : RDir) :
    Grew d.mem (seqRun T d l).1.mem := by
  induction l generalizing d with
  | nil => exact Grew.refl _
  | cons i l ih => exact Grew.trans (run_grows (hg i) d) (ih _)

theorem exec_grows {T : Nat → Task RDir (Go (Option RResponse))} (D : Disciplined T) (hg : ∀ i, AllocatesOnly (T i).body) {m0 : RDir}
    {s s' : Sys RDir (Go (Option RResponse))} {order act : List Nat} (inv : LockInv T m0 s order act) (e : LockEv)
    (h : s.exec T e = .ok s') (hr : ∀ i p, s.phase i = .running p → AllocatesOnly p) (hm : Grew (seqRun T m0 order).1.mem s.mem.mem) :
    (∀ i p, s'.phase i = .running p → AllocatesOnly p) ∧ Grew (seqRun T m0 (order ++ finished [e])).1.mem s'.mem.mem := by
  cases e with
  | lock i =>
    simp only [Sys.exec] at h
    cases hi : s.phase i with
    | idle =>
      rw [hi] at h
      dsimp only at h
      cases hl : s.lock.take (T i).acquire with
      | ok l =>
        rw [hl] at h
        simp only [Outcome.ok.injEq] at h
        subst h
        refine ⟨?_, by simpa [finished] using hm⟩
        intro j p hp
        by_cases hj : j = i
        · subst hj; simp only [setPhase_same, Phase.running.injEq] at hp; subst hp; exact hg j
        · simp only [setPhase_ne _ _ _ _ hj] at hp; exact hr j p hp
      | blocked => rw [hl] at h; cases h
      | fatal => rw [hl] at h; cases h
    | running p => rw [hi] at h; cases h
    | done r => rw [hi] at h; cases h
  | step i =>
    simp only [Sys.exec] at h
    cases hi : s.phase i with
    | idle => rw [hi] at h; cases h
    | done r => rw [hi] at h; cases h
    | running q =>
      rw [hi] at h
      cases q with
      | ret r => cases h
      | act w n =>
        simp only [Outcome.ok.injEq] at h
        subst h
        have hq := hr i _ hi
        refine ⟨?_, ?_⟩
        · intro j p hp
          by_cases hj : j = i
          · subst hj; simp only [setPhase_same, Phase.running.injEq] at hp; subst hp; exact hq.2 _
          · simp only [setPhase_ne _ _ _ _ hj] at hp; exact hr j p hp
        · simp only [finished, List.append_nil]
          exact Grew.trans hm (hq.1 _)
  | unlock i =>
    have inv' : ∃ act', LockInv T m0 s' (order ++ finished [.unlock i]) act' := by
      rcases inv_exec D inv (.unlock i) with g | ⟨s2, act', g, inv2⟩
      · rw [h] at g; cases g
      · rw [h] at g
        simp only [Outcome.ok.injEq] at g
        subst g
        exact ⟨act', inv2⟩
    obtain ⟨act', inv'⟩ := inv'
    simp only [Sys.exec] at h
    cases hi : s.phase i with
    | idle => rw [hi] at h; cases h
    | done r => rw [hi] at h; cases h
    | running q =>
      rw [hi] at h
      cases q with
      | act w n => cases h
      | ret r =>
        dsimp only at h
        cases hl : s.lock.give (T i).release with
        | blocked => rw [hl] at h; cases h
        | fatal => rw [hl] at h; cases h
        | ok l =>
          rw [hl] at h
          simp only [Outcome.ok.injEq] at h
          have hw : l.writer = false := by
            rw [D.same i] at hl
            rcases mode_cases (T i).acquire with g | g
            · rw [g] at hl
              simp only [RWLock.give] at hl
              split at hl
              · cases hl
              · simp only [Outcome.ok.injEq] at hl
                subst hl
                show s.lock.writer = false
                cases hb : s.lock.writer with
                | false => rfl
                | true =>
                  obtain ⟨j, hj, hjw⟩ := inv.writer.mp hb
                  have hia := (inv.isRunning i).mp ⟨_, hi⟩
                  rw [inv.alone j hj hjw] at hia
                  simp only [List.mem_singleton] at hia
                  subst hia
                  rw [g] at hjw
                  cases hjw
            · rw [g] at hl
              simp only [RWLock.give] at hl
              split at hl
              · simp only [Outcome.ok.injEq] at hl; subst hl; rfl
              · cases hl
          subst h
          have hq := inv'.quiet hw
          refine ⟨?_, ?_⟩
          · intro j p hp
            by_cases hj : j = i
            · subst hj; simp only [setPhase_same] at hp; cases hp
            · simp only [setPhase_ne _ _ _ _ hj] at hp; exact hr j p hp
          · rw [← hq]; exact Grew.refl _

theorem execAll_grows {T : Nat → Task RDir (Go (Option RResponse))} (D : Disciplined T) (hg : ∀ i, AllocatesOnly (T i).body) {m0 : RDir}
    (es : List LockEv) : ∀ {s s' : Sys RDir (Go (Option RResponse))} {order act : List Nat}, LockInv T m0 s order act →
    s.execAll T es = .ok s' → (∀ i p, s.phase i = .running p → AllocatesOnly p) → Grew (seqRun T m0 order).1.mem s.mem.mem →
    Grew (seqRun T m0 (order ++ finished es)).1.mem s'.mem.mem := by
  induction es with
  | nil =>
    intro s s' order act inv h hr hm
    simp only [Sys.execAll, Outcome.ok.injEq] at h
    subst h
    simpa [finished] using hm
  | cons e es ih =>
    intro s s' order act inv h hr hm
    simp only [Sys.execAll] at h
    rcases inv_exec D inv e with g | ⟨s1, act1, g, inv1⟩
    · rw [g] at h; cases h
    · rw [g] at h
      dsimp only at h
      obtain ⟨a1, a2⟩ := exec_grows D hg inv e g hr hm
      have := ih inv1 h a1 a2
      rw [show e :: es = [e] ++ es from rfl, finished_append, ← List.append_assoc]
      exact this

theorem r_disciplined {jobs : Nat → Job} {bodies : Nat → Prog RDir (Go (Option RResponse))}
    (hro : ∀ i rnd req, jobs i = .request rnd req → (req.type = 1 ∨ req.type = 2 ∨ req.type = 3) → (bodies i).ReadOnly) :
    Disciplined (rTask jobs bodies) where
  same := by intro i; simp only [rTask]; cases jobs i <;> rfl
  ro := by
    intro i h
    simp only [rTask] at h ⊢
    cases hj : jobs i with
    | request rnd req =>
      refine hro i rnd req hj ?_
      rw [hj] at h
      simp only [Job.acquire, lockMode] at h
      split at h
      · assumption
      · cases h
    | epochUpdate => rw [hj] at h; cases h
    | reload f => rw [hj] at h; cases h

/-- the sections one after the other: the answer of the `k`-th, read at the end -/
theorem r_history (C : Crypto) (t0 : UInt64) (sk vk : Bytes) (size : Nat) (r₁ r₂ : Bytes)
    (jobs : Nat → Job) (bodies : Nat → Prog RDir (Go (Option RResponse)))
    (himp : ∀ i, Implements (bodies i) (fun d => (jobs i).rapply C d)) (hg : ∀ i, AllocatesOnly (bodies i)) (order : List Nat) :
    ∀ (ops0 : List DirOp) (d0 : RDir) (D0 : Directory) (log0 : List STR), dirAfter C t0 sk vk size r₁ r₂ ops0 = some (D0, log0) →
      RRel (fun t => t) d0 D0 → (∀ i, i ∈ order → Job.Sane (jobs i)) →
      dirUpdates ops0 + (order.countP fun i => jobs i = .epochUpdate) < 2 ^ 64 →
      ∀ (k i : Nat), order[k]? = some i → ∃ Dk logk Dk' v r,
        dirAfter C t0 sk vk size r₁ r₂ (ops0 ++ (order.take k).flatMap fun i => Job.ops (jobs i)) = some (Dk, logk) ∧
        (jobs i).apply C Dk = some (Dk', v) ∧ (seqRun (rTask jobs bodies) d0 order).2[k]? = some (some r) ∧
        readResult (seqRun (rTask jobs bodies) d0 order).1.mem r = some v := by
  induction order with
  | nil => intro ops0 d0 D0 log0 _ _ _ _ k i h; simp at h
  | cons i order ih =>
    intro ops0 d0 D0 log0 h0 R hs hlt k j hk
    have hcnt : (if jobs i = .epochUpdate then 1 else 0) + (order.countP fun i => jobs i = .epochUpdate) =
        ((i :: order).countP fun i => jobs i = .epochUpdate) := by
      rw [List.countP_cons]; by_cases h : jobs i = .epochUpdate <;> simp [h] <;> omega
    obtain ⟨inv, _⟩ := dirAfter_padInv C t0 sk vk size r₁ r₂ ops0 (by omega) D0 log0 h0
    obtain ⟨D', v, log', happ, hrun⟩ := job_runs inv (jobs i) (hs i List.mem_cons_self)
    have h1 : dirAfter C t0 sk vk size r₁ r₂ (ops0 ++ Job.ops (jobs i)) = some (D', log') := by
      rw [dirAfter_append, h0]; exact hrun
    have hsim := job_sim R C (jobs i)
    rw [happ] at hsim
    cases hra : (jobs i).rapply C d0 with
    | none => rw [hra] at hsim; exact hsim.elim
    | some x =>
      obtain ⟨d', r⟩ := x
      rw [hra] at hsim
      obtain ⟨R', hread⟩ := hsim
      have hbody := (himp i d0).2 d' r hra
      have hseq : seqRun (rTask jobs bodies) d0 (i :: order) =
          ((seqRun (rTask jobs bodies) d' order).1, some r :: (seqRun (rTask jobs bodies) d' order).2) := by
        simp only [seqRun]
        have : (rTask jobs bodies i).body.run d0 = (d', some r) := hbody
        rw [this]
      rw [hseq]
      cases k with
      | zero =>
        simp only [List.getElem?_cons_zero, Option.some.injEq] at hk
        subst hk
        refine ⟨D0, log0, D', v, r, by simpa using h0, happ, rfl, ?_⟩
        exact readResult_grows (seqRun_grows (T := rTask jobs bodies) hg order d') hread
      | succ k =>
        simp only [List.getElem?_cons_succ] at hk
        obtain ⟨Dk, logk, Dk', v', r', j1, j2, j3, j4⟩ := ih (ops0 ++ Job.ops (jobs i)) d' D' log' h1 R'
          (fun j hj => hs j (List.mem_cons_of_mem _ hj)) (by rw [dirUpdates_append, jobs_updates]; omega) k j hk
        refine ⟨Dk, logk, Dk', v', r', ?_, j2, by simpa using j3, j4⟩
        rw [List.take_succ_cons, List.flatMap_cons, ← List.append_assoc]; exact j1

/-! ### The code of the sections -/

theorem update_grew {C : Crypto} {m m' : Mem} {p p' : RPAD} {ad : Option Nat} (h : p.update C m ad = some (m', p')) : Grew m m' := by
  unfold RPAD.update at h
  split at h
  · cases h
  · unfold RPAD.updateInternal Mem.newSTR at h
    dsimp only at h
    split at h
    · cases h
    · rename_i e
      simp only [Option.some.injEq, Prod.mk.injEq] at h
      split at e
      · cases e
      · simp only [Option.some.injEq, Prod.mk.injEq] at e
        obtain ⟨rfl, rfl⟩ := e
        obtain ⟨rfl, _⟩ := h
        exact ⟨List.prefix_refl _, List.prefix_append _ _, List.prefix_refl _, List.prefix_refl _⟩

theorem newTB_grew {C : Crypto} {d : RDir} {n : Bytes} {k a : Nat} {m : Mem} (h : d.newTB C n k = some (m, a)) : Grew d.mem m := by
  unfold RDir.newTB at h
  split at h
  · simp only [Option.some.injEq, Prod.mk.injEq] at h
    obtain ⟨rfl, _⟩ := h
    exact ⟨List.prefix_refl _, List.prefix_refl _, List.prefix_append _ _, List.prefix_refl _⟩
  · cases h

theorem tail_run (C : Crypto) (rnd : Option Bytes) (n k : Bytes) (ap : AuthPath) (tb : Option Nat) (d : RDir) (s : RDirSTR)
    (hs : d.latestSTR = some s) :
    (rRegisterTail C rnd n k ap tb).run d =
      match d.pad.set C rnd n k with
      | none => (d, none)
      | some (pad', false) => ({ d with pad := pad' }, some (some (rErrorResponse ErrDirectory)))
      | some (pad', true) =>
        ({ d with pad := pad', tbs := match tb with
            | some t => fun x => if x = n then some t else d.tbs x
            | none => d.tbs }, some (some { error := ReqSuccess, body := .proof [ap] [s] tb })) := by
  simp only [rRegisterTail, Prog.run]
  cases hset : d.pad.set C rnd n k with
  | none => rfl
  | some x =>
    obtain ⟨pad', ok⟩ := x
    have hl : pad'.latest = d.pad.latest := by
      simp only [RPAD.set, Option.map_eq_some_iff] at hset
      obtain ⟨y, _, e⟩ := hset
      cases e; rfl
    cases ok with
    | false => rfl
    | true =>
      have : ({ d with pad := pad' } : RDir).latestSTR = some s := by
        rw [← hs]; simp only [RDir.latestSTR, hl]
      simp only [Prog.run, this, rSingleProof, Option.map_some]
      cases tb <;> rfl

theorem tail_grows (C : Crypto) (rnd : Option Bytes) (n k : Bytes) (ap : AuthPath) (tb : Option Nat) :
    AllocatesOnly (rRegisterTail C rnd n k ap tb) := by
  refine ⟨fun d => ?_, fun d => ?_⟩
  · dsimp only; split <;> exact Grew.refl _
  · dsimp only
    cases d.pad.set C rnd n k with
    | none => trivial
    | some x =>
      obtain ⟨p, ok⟩ := x
      cases ok with
      | false => trivial
      | true =>
        refine ⟨fun d => ?_, fun d => trivial⟩
        dsimp only; split <;> exact Grew.refl _

theorem register_grows (C : Crypto) (rnd : Option Bytes) (req : RegistrationRequest) : AllocatesOnly (rRegisterBody C rnd req) := by
  refine ⟨fun d => ⟨List.prefix_refl _, List.prefix_refl _, List.prefix_refl _, List.prefix_append _ _⟩, fun d0 => ?_⟩
  refine ⟨fun d => Grew.refl _, fun d => ?_⟩
  dsimp only
  cases d.mem.bufs[d0.mem.bufs.length]? with
  | none => trivial
  | some k =>
    dsimp only
    by_cases hm : req.username.length = 0 ∨ k.length = 0
    · rw [if_pos hm]; trivial
    · rw [if_neg hm]
      cases d.pad.lookup C d.mem req.username with
      | none => trivial
      | some o =>
        cases o with
        | none => trivial
        | some ap =>
          dsimp only
          cases ap.found with
          | none => trivial
          | some b =>
            cases b with
            | true => trivial
            | false =>
              dsimp only
              cases (if d.useTBs then d.tbs req.username else none) with
              | some tb => trivial
              | none =>
                dsimp only
                by_cases hu : d.useTBs
                · rw [if_pos hu]
                  refine ⟨fun d => ?_, fun d => ?_⟩
                  · dsimp only
                    cases h : d.newTB C req.username d0.mem.bufs.length with
                    | none => exact Grew.refl _
                    | some x => exact newTB_grew (a := x.2) h
                  · dsimp only
                    cases d.newTB C req.username d0.mem.bufs.length with
                    | none => trivial
                    | some x => exact tail_grows _ _ _ _ _ _
                · rw [if_neg hu]; exact tail_grows _ _ _ _ _ _

theorem rcode_grows (C : Crypto) (j : Job) : AllocatesOnly (j.rcode C) := by
  have rd : ∀ (g : RDir → Go (Option RResponse)), AllocatesOnly (.act id fun d => .ret (g d)) :=
    fun g => ⟨fun d => Grew.refl _, fun d => trivial⟩
  cases j with
  | request rnd req =>
    obtain ⟨t, p⟩ := req
    simp only [Job.rcode]
    split
    · cases p with
      | registration r => exact register_grows C rnd r
      | _ => exact rd _
    · exact rd _
  | epochUpdate =>
    refine ⟨fun d => ?_, fun d => ?_⟩
    · dsimp only
      split
      · rename_i h; exact update_grew h
      · exact Grew.refl _
    · dsimp only
      cases d.pad.update C d.mem (some d.policies) with
      | none => trivial
      | some x => exact ⟨fun d => Grew.refl _, fun d => ⟨fun d => Grew.refl _, fun d => trivial⟩⟩
  | reload file =>
    simp only [Job.rcode]
    split
    · trivial
    · trivial
    · refine ⟨fun d => ?_, fun d => trivial⟩
      simp only [RDir.setPolicies]
      split
      · exact Grew.refl _
      · exact ⟨List.prefix_append _ _, List.prefix_refl _, List.prefix_refl _, List.prefix_refl _⟩

theorem rcode_readOnly (C : Crypto) (rnd : Option Bytes) (req : Request) (h : req.type = 1 ∨ req.type = 2 ∨ req.type = 3) :
    (Job.rcode C (.request rnd req)).ReadOnly := by
  obtain ⟨t, p⟩ := req
  have : t ≠ RegistrationType := by unfold RegistrationType; simp only at h; omega
  simp only [Job.rcode, if_neg this]
  exact ⟨fun _ => rfl, fun _ => trivial⟩

theorem lookup_latest {C : Crypto} {d : RDir} {n : Bytes} {o : Option AuthPath} (h : d.pad.lookup C d.mem n = some o) :
    ∃ s, d.latestSTR = some s := by
  simp only [RPAD.lookup] at h
  simp only [RDir.latestSTR, Mem.newDirSTR]
  cases e : d.mem.strs[d.pad.latest]? with
  | none => rw [e] at h; cases h
  | some s => exact ⟨_, rfl⟩

theorem register_run (C : Crypto) (rnd : Option Bytes) (req : RegistrationRequest) (d : RDir) :
    ((d.decodeKey req.key).register C rnd req.username d.mem.bufs.length = none → ((rRegisterBody C rnd req).run d).2 = none) ∧
    ∀ d' r, (d.decodeKey req.key).register C rnd req.username d.mem.bufs.length = some (d', r) →
      (rRegisterBody C rnd req).run d = (d', some (some r)) := by
  simp only [rRegisterBody, Prog.run, id_eq]
  generalize d.mem.bufs.length = key
  generalize d.decodeKey req.key = d
  unfold RDir.register
  cases hk : d.mem.bufs[key]? with
  | none => exact ⟨fun _ => rfl, fun d' r h => (nomatch h)⟩
  | some k =>
    dsimp only
    by_cases hm : req.username.length = 0 ∨ k.length = 0
    · rw [if_pos hm, if_pos hm]
      refine ⟨fun h => (nomatch h), fun d' r h => ?_⟩
      cases h; rfl
    · rw [if_neg hm, if_neg hm]
      cases hl : d.pad.lookup C d.mem req.username with
      | none => exact ⟨fun _ => rfl, fun d' r h => (nomatch h)⟩
      | some o =>
        obtain ⟨s, hs⟩ := lookup_latest hl
        cases o with
        | none =>
          refine ⟨fun h => (nomatch h), fun d' r h => ?_⟩
          cases h; rfl
        | some ap =>
          dsimp only
          cases hf : ap.found with
          | none => exact ⟨fun _ => rfl, fun d' r h => (nomatch h)⟩
          | some b =>
            cases b with
            | true =>
              dsimp only
              simp only [hs, rSingleProof, Option.map_some]
              refine ⟨fun h => (nomatch h), fun d' r h => ?_⟩
              cases h; rfl
            | false =>
              dsimp only
              cases ht : (if d.useTBs then d.tbs req.username else none) with
              | some tb =>
                dsimp only
                simp only [hs, rSingleProof, Option.map_some]
                refine ⟨fun h => (nomatch h), fun d' r h => ?_⟩
                cases h; rfl
              | none =>
                dsimp only
                by_cases hu : d.useTBs
                · rw [if_pos hu, if_pos hu]
                  simp only [Prog.run]
                  cases hn : d.newTB C req.username key with
                  | none => exact ⟨fun _ => rfl, fun d' r h => (nomatch h)⟩
                  | some x =>
                    obtain ⟨m, t⟩ := x
                    have hs' : ({ d with mem := m } : RDir).latestSTR = some s := by
                      have e : m.strs = d.mem.strs := by
                        unfold RDir.newTB at hn
                        split at hn
                        · cases hn; rfl
                        · cases hn
                      rw [← hs]
                      simp only [RDir.latestSTR, Mem.newDirSTR, e]
                    simp only [Option.map_some]
                    rw [tail_run C rnd req.username k ap (some t) { d with mem := m } s hs']
                    cases hset : d.pad.set C rnd req.username k with
                    | none => exact ⟨fun _ => rfl, fun d' r h => (nomatch h)⟩
                    | some y =>
                      obtain ⟨pad', ok⟩ := y
                      have hlat : pad'.latest = d.pad.latest := by
                        simp only [RPAD.set, Option.map_eq_some_iff] at hset
                        obtain ⟨y, _, e⟩ := hset
                        cases e; rfl
                      cases ok with
                      | false =>
                        refine ⟨fun h => (nomatch h), fun d' r h => ?_⟩
                        cases h; rfl
                      | true =>
                        dsimp only
                        have hs2 : ∀ f, RDir.latestSTR { mem := m, pad := pad', useTBs := d.useTBs, tbs := f, policies := d.policies } = some s := by
                          intro f
                          rw [← hs']; simp only [RDir.latestSTR, hlat]
                        simp only [hs2, rSingleProof, Option.map_some]
                        refine ⟨fun h => (nomatch h), fun d' r h => ?_⟩
                        cases h; rfl
                · rw [if_neg hu, if_neg hu]
                  dsimp only
                  rw [tail_run C rnd req.username k ap none d s hs]
                  cases hset : d.pad.set C rnd req.username k with
                  | none => exact ⟨fun _ => rfl, fun d' r h => (nomatch h)⟩
                  | some y =>
                    obtain ⟨pad', ok⟩ := y
                    have hlat : pad'.latest = d.pad.latest := by
                      simp only [RPAD.set, Option.map_eq_some_iff] at hset
                      obtain ⟨y, _, e⟩ := hset
                      cases e; rfl
                    cases ok with
                    | false =>
                      refine ⟨fun h => (nomatch h), fun d' r h => ?_⟩
                      cases h; rfl
                    | true =>
                      dsimp only
                      have hs2 : ∀ f, RDir.latestSTR { mem := d.mem, pad := pad', useTBs := d.useTBs, tbs := f, policies := d.policies } = some s := by
                        intro f
                        rw [← hs]; simp only [RDir.latestSTR, hlat]
                      simp only [hs2, rSingleProof, Option.map_some]
                      refine ⟨fun h => (nomatch h), fun d' r h => ?_⟩
                      cases h; rfl

theorem rhandle_same_dir {C : Crypto} {rnd : Option Bytes} {d d' : RDir} {req : Request} {r : RResponse}
    (h : d.handleRequests C rnd req = some (d', r)) (hn : req.type ≠ RegistrationType ∨ ∀ m, req.payload ≠ .registration m) :
    d' = d := by
  unfold RDir.handleRequests at h
  split at h
  · rename_i ht
    rcases hn with hn | hn
    · exact absurd ht hn
    · split at h
      · rename_i m hm; exact absurd hm (hn m)
      · cases h
      · cases h; rfl
  · have same : ∀ {x : Go RResponse}, (x.map fun r => (d, r)) = some (d', r) → d' = d := by
      intro x hx
      obtain ⟨y, _, e⟩ := Option.map_eq_some_iff.mp hx
      exact (congrArg Prod.fst e).symm
    repeat' split at h
    all_goals first | exact same h | (cases h; done) | (cases h; rfl)

theorem rcode_implements (C : Crypto) (j : Job) : Implements (j.rcode C) (fun d => j.rapply C d) := by
  intro d
  have reading : ∀ rnd req, (req.type ≠ RegistrationType ∨ ∀ m, req.payload ≠ .registration m) →
      ((Job.request rnd req).rapply C d = none → ((d.handleRequests C rnd req).map fun x => some x.2) = none) ∧
      ∀ s' r, (Job.request rnd req).rapply C d = some (s', r) →
        (d, (d.handleRequests C rnd req).map fun x => some x.2) = (s', some r) := by
    intro rnd req hn
    simp only [Job.rapply]
    cases hh : d.handleRequests C rnd req with
    | none => exact ⟨fun _ => rfl, fun s' r h => (nomatch h)⟩
    | some x =>
      refine ⟨fun h => (nomatch h), fun s' r h => ?_⟩
      simp only [Option.map_some, Option.some.injEq, Prod.mk.injEq] at h
      rw [← h.1, rhandle_same_dir hh hn, ← h.2]
      rfl
  cases j with
  | request rnd req =>
    obtain ⟨t, p⟩ := req
    simp only [Job.rcode]
    by_cases ht : t = RegistrationType
    · rw [if_pos ht]
      cases p with
      | registration r =>
        subst ht
        obtain ⟨h1, h2⟩ := register_run C rnd r d
        have e : d.handleRequests C rnd ⟨RegistrationType, .registration r⟩ = (d.decodeKey r.key).register C rnd r.username d.mem.bufs.length := by
          simp [RDir.handleRequests]
        simp only [Job.rapply, e, Option.map_eq_none_iff]
        refine ⟨h1, fun s' o h => ?_⟩
        obtain ⟨x, hx, e⟩ := Option.map_eq_some_iff.mp h
        rw [h2 x.1 x.2 hx]
        cases e; rfl
      | _ => exact reading rnd _ (Or.inr fun m e => (nomatch e))
    · rw [if_neg ht]; exact reading rnd _ (Or.inl ht)
  | epochUpdate =>
    simp only [Job.rcode, Job.rapply, rUpdateBody, Prog.run, RDir.update]
    cases d.pad.update C d.mem (some d.policies) with
    | none => exact ⟨fun _ => rfl, fun s' r h => (nomatch h)⟩
    | some x => exact ⟨fun h => (nomatch h), fun s' r h => by cases h; rfl⟩
  | reload file =>
    simp only [Job.rcode, Job.rapply]
    cases loadConfig file with
    | none => exact ⟨fun _ => rfl, fun s' r h => (nomatch h)⟩
    | some o =>
      cases o with
      | none => exact ⟨fun h => (nomatch h), fun s' r h => by cases h; rfl⟩
      | some t =>
        simp only [Prog.run]
        cases d.setPolicies t with
        | none => exact ⟨fun _ => rfl, fun s' r h => (nomatch h)⟩
        | some d' => exact ⟨fun h => (nomatch h), fun s' r h => by cases h; rfl⟩

end Coniks
