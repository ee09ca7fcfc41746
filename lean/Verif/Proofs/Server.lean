import Verif.Spec.Server
import Verif.Proofs.Lock
import Verif.Proofs.DirPad
/-
The request handler and the jobs of the key server.
-/
namespace Coniks
open Spec

theorem handle_operation {C : Crypto} {rnd : Option Bytes} {d : Directory} {req : Request} {op : DirOp}
    (h : operation rnd req = some op) :
    ((d.handleRequests C rnd req).map fun x => (x.1, some x.2)) = d.step C op := by
  obtain ⟨t, p⟩ := req
  cases p <;> simp only [operation] at h <;> first | (cases h; done) | skip
  all_goals
    split at h
    · rename_i ht
      subst ht
      cases h
      simp [Directory.handleRequests, RegistrationType, KeyLookupType, KeyLookupInEpochType, MonitoringType, Directory.step,
        Function.comp_def]
    · cases h

theorem handle_mismatch {C : Crypto} {rnd : Option Bytes} {d : Directory} {req : Request} (nn : NonNil req)
    (h : operation rnd req = none) : d.handleRequests C rnd req = some (d, ⟨ErrMalformedMessage, .none⟩) := by
  obtain ⟨t, p⟩ := req
  obtain ⟨n1, n2, n3, n4⟩ := nn
  cases p <;> simp only [operation] at h <;> first | exact absurd rfl n1 | exact absurd rfl n2 | exact absurd rfl n3 | exact absurd rfl n4 | skip
  all_goals
    have h' : ∀ {c : Prop} [Decidable c] {x : DirOp}, (if c then some x else none) = none → ¬ c := by
      intro c _ x hx hc; rw [if_pos hc] at hx; cases hx
    simp only [Directory.handleRequests, RegistrationType, KeyLookupType, KeyLookupInEpochType, MonitoringType, newErrorResponse]
    by_cases e0 : t = 0
    · first | exact absurd e0 (h' h) | simp [e0]
    by_cases e1 : t = 1
    · first | exact absurd e1 (h' h) | simp [e1]
    by_cases e2 : t = 2
    · first | exact absurd e2 (h' h) | simp [e2]
    by_cases e3 : t = 3
    · first | exact absurd e3 (h' h) | simp [e3]
    simp [e0, e1, e2, e3]

theorem operation_not_history {rnd : Option Bytes} {req : Request} {op : DirOp} (h : operation rnd req = some op) :
    (∀ r, op ≠ .getSTRHistory r) ∧ dirUpdates [op] = 0 := by
  obtain ⟨t, p⟩ := req
  cases p <;> simp only [operation] at h <;> first | (cases h; done) | skip
  all_goals
    split at h
    · cases h; exact ⟨fun r e => (nomatch e), rfl⟩
    · cases h

theorem unmarshal_nonNil {J : Json} {msg : Bytes} {req : Request} (h : unmarshalRequest J msg = some req) : NonNil req := by
  obtain ⟨x, _, h⟩ := Option.bind_eq_some_iff.mp h
  repeat' split at h
  all_goals
    obtain ⟨r, _, e⟩ := Option.map_eq_some_iff.mp h
    subst e
    exact ⟨fun e => (nomatch e), fun e => (nomatch e), fun e => (nomatch e), fun e => (nomatch e)⟩

/-- one section, seen from the directory -/
theorem job_runs {C : Crypto} {d : Directory} {log : List STR} (inv : PadInv C d.pad log) (j : Job) (hs : Job.Sane j) :
    ∃ d' r log', j.apply C d = some (d', r) ∧ d.runLog C log (Job.ops j) = some (d', log') := by
  cases j with
  | request rnd req =>
    simp only [Job.apply, Job.ops]
    cases hop : operation rnd req with
    | none =>
      rw [handle_mismatch hs hop]
      exact ⟨d, _, log, rfl, rfl⟩
    | some op =>
      rw [handle_operation hop]
      have np : ¬ Panics (d.step C op) := by
        intro hp
        obtain ⟨r, hr, _⟩ := (step_panics_iff inv op).mp hp
        exact (operation_not_history hop).1 r hr
      cases hst : d.step C op with
      | none => exact absurd hst np
      | some x => exact ⟨x.1, x.2, _, rfl, by simp only [Option.toList, Directory.runLog, hst, Option.bind_some]; rfl⟩
  | epochUpdate => exact ⟨_, _, _, rfl, rfl⟩
  | reload file =>
    simp only [Job.apply, Job.ops, Directory.updatePolicies]
    have : loadConfig file ≠ none := by
      intro h
      unfold loadConfig at h
      cases file with
      | none => simp at h
      | some conf =>
        obtain ⟨g1, g2⟩ := hs conf rfl
        obtain ⟨p, hp⟩ := Option.isSome_iff_exists.mp g1
        simp only [hp, g2, if_true] at h
        repeat' split at h
        all_goals cases h
    cases hl : loadConfig file with
    | none => exact absurd hl this
    | some o =>
      cases o with
      | none => exact ⟨d, none, log, rfl, rfl⟩
      | some t => exact ⟨_, none, _, rfl, rfl⟩

theorem jobs_updates (j : Job) : dirUpdates (Job.ops j) = if j = .epochUpdate then 1 else 0 := by
  cases j with
  | request rnd req =>
    simp only [Job.ops]
    cases hop : operation rnd req with
    | none => rfl
    | some op => simpa using (operation_not_history hop).2
  | epochUpdate => rfl
  | reload file => simp only [Job.ops]; split <;> rfl

theorem registerBody_run (C : Crypto) (rnd : Option Bytes) (req : RegistrationRequest) (d : Directory) :
    (d.register C rnd req = none → ((registerBody C rnd req).run d).2 = none) ∧
    ∀ d' r, d.register C rnd req = some (d', r) → (registerBody C rnd req).run d = (d', some (some r)) := by
  simp only [registerBody, Prog.run, id_eq, Directory.register]
  by_cases hm : req.username.length = 0 ∨ req.key.length = 0
  · rw [if_pos hm, if_pos hm]
    refine ⟨fun h => (nomatch h), fun d' r h => ?_⟩
    cases h; rfl
  · rw [if_neg hm, if_neg hm]
    cases hl : d.pad.lookup C req.username with
    | none => exact ⟨fun _ => rfl, fun d' r h => (nomatch h)⟩
    | some o =>
      cases o with
      | none =>
        refine ⟨fun h => (nomatch h), fun d' r h => ?_⟩
        cases h; rfl
      | some ap =>
        simp only
        cases hf : ap.found with
        | none => exact ⟨fun _ => rfl, fun d' r h => (nomatch h)⟩
        | some b =>
          cases b with
          | true =>
            refine ⟨fun h => (nomatch h), fun d' r h => ?_⟩
            cases h; rfl
          | false =>
            simp only
            cases ht : (if d.useTBs then d.tbs req.username else none) with
            | some tb =>
              refine ⟨fun h => (nomatch h), fun d' r h => ?_⟩
              cases h; rfl
            | none =>
              simp only [Prog.run]
              cases hset : d.pad.set C rnd req.username req.key with
              | none => exact ⟨fun _ => rfl, fun d' r h => (nomatch h)⟩
              | some x =>
                obtain ⟨pad', ok⟩ := x
                cases ok with
                | false =>
                  refine ⟨fun h => (nomatch h), fun d' r h => ?_⟩
                  cases h; rfl
                | true =>
                  refine ⟨fun h => (nomatch h), fun d' r h => ?_⟩
                  cases h
                  by_cases hu : d.useTBs <;> simp [Prog.run, hu, Directory.latestSTR]

theorem register_type_handle (C : Crypto) (rnd : Option Bytes) (d : Directory) (r : RegistrationRequest) :
    d.handleRequests C rnd ⟨RegistrationType, .registration r⟩ = d.register C rnd r := by
  simp [Directory.handleRequests]

theorem handle_same_dir {C : Crypto} {rnd : Option Bytes} {d d' : Directory} {req : Request} {r : Response}
    (h : d.handleRequests C rnd req = some (d', r)) (hn : req.type ≠ RegistrationType ∨ ∀ m, req.payload ≠ .registration m) :
    d' = d := by
  unfold Directory.handleRequests at h
  split at h
  · rename_i ht
    rcases hn with hn | hn
    · exact absurd ht hn
    · split at h
      · rename_i m hm; exact absurd hm (hn m)
      · cases h
      · cases h; rfl
  · have same : ∀ {x : Go Response}, (x.map fun r => (d, r)) = some (d', r) → d' = d := by
      intro x hx
      obtain ⟨y, _, e⟩ := Option.map_eq_some_iff.mp hx
      exact (congrArg Prod.fst e).symm
    repeat' split at h
    all_goals first | exact same h | (cases h; done) | (cases h; rfl)

theorem code_implements (C : Crypto) (j : Job) : Implements (j.code C) (fun d => j.apply C d) := by
  intro d
  have reading : ∀ rnd req, (req.type ≠ RegistrationType ∨ ∀ m, req.payload ≠ .registration m) →
      ((Job.request rnd req).apply C d = none → ((d.handleRequests C rnd req).map fun x => some x.2) = none) ∧
      ∀ s' r, (Job.request rnd req).apply C d = some (s', r) →
        (d, (d.handleRequests C rnd req).map fun x => some x.2) = (s', some r) := by
    intro rnd req hn
    simp only [Job.apply]
    cases hh : d.handleRequests C rnd req with
    | none => exact ⟨fun _ => rfl, fun s' r h => (nomatch h)⟩
    | some x =>
      refine ⟨fun h => (nomatch h), fun s' r h => ?_⟩
      simp only [Option.map_some, Option.some.injEq, Prod.mk.injEq] at h
      rw [← h.1, handle_same_dir hh hn, ← h.2]
      rfl
  cases j with
  | request rnd req =>
    obtain ⟨t, p⟩ := req
    simp only [Job.code]
    by_cases ht : t = RegistrationType
    · rw [if_pos ht]
      cases p with
      | registration r =>
        subst ht
        obtain ⟨h1, h2⟩ := registerBody_run C rnd r d
        simp only [Job.apply, register_type_handle, Option.map_eq_none_iff]
        refine ⟨h1, fun s' o h => ?_⟩
        obtain ⟨x, hx, e⟩ := Option.map_eq_some_iff.mp h
        rw [h2 x.1 x.2 hx]
        cases e; rfl
      | _ => exact reading rnd _ (Or.inr fun m e => (nomatch e))
    · rw [if_neg ht]; exact reading rnd _ (Or.inl ht)
  | epochUpdate => exact ⟨fun h => (nomatch h), fun s' r h => by cases h; rfl⟩
  | reload file =>
    simp only [Job.code, Job.apply, Prog.run]
    cases d.updatePolicies file with
    | none => exact ⟨fun _ => rfl, fun s' r h => (nomatch h)⟩
    | some d' => exact ⟨fun h => (nomatch h), fun s' r h => by cases h; rfl⟩

theorem code_readOnly (C : Crypto) (rnd : Option Bytes) (req : Request) (h : req.type = 1 ∨ req.type = 2 ∨ req.type = 3) :
    (Job.code C (.request rnd req)).ReadOnly := by
  obtain ⟨t, p⟩ := req
  have : t ≠ RegistrationType := by unfold RegistrationType; simp only at h; omega
  simp only [Job.code, if_neg this]
  exact ⟨fun _ => rfl, fun _ => trivial⟩

theorem server_disciplined {jobs : Nat → Job} {bodies : Nat → Prog Directory (Go (Option Response))}
    (hro : ∀ i rnd req, jobs i = .request rnd req → (req.type = 1 ∨ req.type = 2 ∨ req.type = 3) → (bodies i).ReadOnly) :
    Disciplined (serverTask jobs bodies) where
  same := by intro i; simp only [serverTask]; cases jobs i <;> rfl
  ro := by
    intro i h
    simp only [serverTask] at h ⊢
    cases hj : jobs i with
    | request rnd req =>
      refine hro i rnd req hj ?_
      rw [hj] at h
      simp only [Job.acquire, lockMode] at h
      split at h
      · assumption
      · cases h
    | epochUpdate => rw [hj] at h; cases h
    | reload f => rw [hj] at h; cases h

theorem flatMap_updates (jobs : Nat → Job) (l : List Nat) :
    dirUpdates (l.flatMap fun i => Job.ops (jobs i)) = l.countP fun i => jobs i = .epochUpdate := by
  induction l with
  | nil => rfl
  | cons i l ih =>
    rw [List.flatMap_cons, dirUpdates_append, ih, jobs_updates, List.countP_cons]
    by_cases h : jobs i = .epochUpdate <;> simp [h] <;> omega

/-- the sequential run of the sections is the history of the directory -/
theorem seq_history (C : Crypto) (t0 : UInt64) (sk vk : Bytes) (size : Nat) (r₁ r₂ : Bytes) (ops0 : List DirOp)
    (d0 : Directory) (log0 : List STR) (h0 : dirAfter C t0 sk vk size r₁ r₂ ops0 = some (d0, log0))
    (jobs : Nat → Job) (bodies : Nat → Prog Directory (Go (Option Response)))
    (himp : ∀ i, Implements (bodies i) (fun d => (jobs i).apply C d)) (order : List Nat) (hs : ∀ i, i ∈ order → Job.Sane (jobs i))
    (hlt : dirUpdates ops0 + (order.countP fun i => jobs i = .epochUpdate) < 2 ^ 64) :
    ∃ log, dirAfter C t0 sk vk size r₁ r₂ (ops0 ++ order.flatMap fun i => Job.ops (jobs i)) =
        some ((seqRun (serverTask jobs bodies) d0 order).1, log) ∧
      ∀ k i, order[k]? = some i → ∃ dk logk dk' r,
        dirAfter C t0 sk vk size r₁ r₂ (ops0 ++ (order.take k).flatMap fun i => Job.ops (jobs i)) = some (dk, logk) ∧
        (jobs i).apply C dk = some (dk', r) ∧ (seqRun (serverTask jobs bodies) d0 order).2[k]? = some (some r) := by
  induction order generalizing ops0 d0 log0 with
  | nil => exact ⟨log0, by simpa [seqRun] using h0, fun k i h => by simp at h⟩
  | cons i order ih =>
    have hcnt : (if jobs i = .epochUpdate then 1 else 0) + (order.countP fun i => jobs i = .epochUpdate) =
        ((i :: order).countP fun i => jobs i = .epochUpdate) := by
      rw [List.countP_cons]; by_cases h : jobs i = .epochUpdate <;> simp [h] <;> omega
    obtain ⟨inv, _⟩ := dirAfter_padInv C t0 sk vk size r₁ r₂ ops0 (by omega) d0 log0 h0
    obtain ⟨d', r, log', happ, hrun⟩ := job_runs inv (jobs i) (hs i List.mem_cons_self)
    have h1 : dirAfter C t0 sk vk size r₁ r₂ (ops0 ++ Job.ops (jobs i)) = some (d', log') := by
      rw [dirAfter_append, h0]; exact hrun
    have hbody := (himp i d0).2 d' r happ
    have hseq : seqRun (serverTask jobs bodies) d0 (i :: order) =
        ((seqRun (serverTask jobs bodies) d' order).1, some r :: (seqRun (serverTask jobs bodies) d' order).2) := by
      simp only [seqRun]
      have : (serverTask jobs bodies i).body.run d0 = (d', some r) := hbody
      rw [this]
    obtain ⟨log, i1, i2⟩ := ih (ops0 ++ Job.ops (jobs i)) d' log' h1 (fun j hj => hs j (List.mem_cons_of_mem _ hj))
      (by rw [dirUpdates_append, jobs_updates]; omega)
    refine ⟨log, ?_, ?_⟩
    · rw [hseq, List.flatMap_cons, ← List.append_assoc]; exact i1
    · intro k j hk
      rw [hseq]
      cases k with
      | zero =>
        simp only [List.getElem?_cons_zero, Option.some.injEq] at hk
        subst hk
        exact ⟨d0, log0, d', r, by simpa using h0, happ, rfl⟩
      | succ k =>
        simp only [List.getElem?_cons_succ] at hk
        obtain ⟨dk, logk, dk', r', j1, j2, j3⟩ := i2 k j hk
        refine ⟨dk, logk, dk', r', ?_, j2, by simpa using j3⟩
        rw [List.take_succ_cons, List.flatMap_cons, ← List.append_assoc]; exact j1

end Coniks
