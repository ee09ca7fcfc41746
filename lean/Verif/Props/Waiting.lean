import Verif.Proofs.Waiting
import Verif.Props.Server
/-
C78: nobody waits for ever.
-/
namespace Coniks.Props
open Coniks Spec

/-- the sections of the server obey the discipline of the lock -/
theorem code_disciplined (C : Crypto) (jobs : Nat → Job) : Disciplined (serverTask jobs fun i => (jobs i).code C) :=
  server_disciplined fun i rnd req e ht => by simp only [e]; exact code_readOnly C rnd req ht

/-- C78. Goroutines without number run the critical sections `jobs` of the server; each may come at any time or never. In every endless
execution in which Go's scheduler runs whoever can run and writers take turns, whoever has asked for the lock by time `n` (a client whose
request has been read and admitted, a round of the epoch timer, a reload) gets through: at some later time `m` it has given back the lock.
And as long as there have been fewer than 2^64 epochs, what it got is the answer of the directory after the sections that
finished before it, in that order. -/
theorem C78_answered (C : Crypto) (t0 : UInt64) (sk vk : Bytes) (size : Nat) (r₁ r₂ : Bytes) (ops0 : List DirOp)
    (d0 : Directory) (log0 : List STR) (h0 : dirAfter C t0 sk vk size r₁ r₂ ops0 = some (d0, log0))
    (jobs : Nat → Job) (hsane : ∀ i, Job.Sane (jobs i))
    (st : Nat → WSys Directory (Go (Option Response))) (ev : Nat → Option WaitEv)
    (E : Endless (serverTask jobs fun i => (jobs i).code C) d0 st ev)
    (F : RunsAll (serverTask jobs fun i => (jobs i).code C) st ev)
    (W : WritersTakeTurns (serverTask jobs fun i => (jobs i).code C) st ev)
    (i n : Nat) (hask : (st n).phase i ≠ .away) :
    ∃ m r, n ≤ m ∧ (st m).phase i = .done r ∧
      (dirUpdates ops0 + ((left (history ev m)).countP fun i => jobs i = .epochUpdate) < 2 ^ 64 →
        ∃ k dk logk dk' a, (left (history ev m))[k]? = some i ∧
          dirAfter C t0 sk vk size r₁ r₂ (ops0 ++ ((left (history ev m)).take k).flatMap fun i => Job.ops (jobs i)) = some (dk, logk) ∧
          (jobs i).apply C dk = some (dk', a) ∧ r = some a) := by
  have D := code_disciplined C jobs
  obtain ⟨m, r, hm, hr⟩ := asked_done D E F W hask
  refine ⟨m, r, hm, hr, fun hlt => ?_⟩
  obtain ⟨ls, t, R, hf⟩ := refines_execAll D _ (winv_initial _ d0) (refines_initial _ d0) (endless_prefix E m)
  simp only [finished, List.nil_append] at hf
  have hc := C45_linearizable C t0 sk vk size r₁ r₂ ops0 d0 log0 h0 jobs (fun i => (jobs i).code C) hsane
    (fun i => code_implements C (jobs i)) (fun i rnd req e ht => by simp only [e]; exact code_readOnly C rnd req ht) ls t R.exec
    (by rw [hf]; exact hlt)
  rw [hf] at hc
  have hi : i ∈ left (history ev m) := (hc.2.1 i).mp ⟨r, by rw [R.phase i, hr]; rfl⟩
  obtain ⟨k, hk⟩ := List.getElem?_of_mem hi
  obtain ⟨dk, logk, dk', a, h1, h2, h3⟩ := hc.2.2.2 k i hk
  refine ⟨k, dk, logk, dk', a, hk, h1, h2, ?_⟩
  rw [R.phase i, hr] at h3
  cases h3; rfl

/-- C78. The waiting does not weaken C45: every schedule with waiting goroutines, queueing writers and readers let in by an `Unlock` is a
schedule of the plain lock with the same finishing order, so the directory is the one after a sequential history whenever no
writer is inside, and every answer is the one of that history. -/
theorem C78_linearizable (C : Crypto) (t0 : UInt64) (sk vk : Bytes) (size : Nat) (r₁ r₂ : Bytes) (ops0 : List DirOp)
    (d0 : Directory) (log0 : List STR) (h0 : dirAfter C t0 sk vk size r₁ r₂ ops0 = some (d0, log0))
    (jobs : Nat → Job) (hsane : ∀ i, Job.Sane (jobs i)) (es : List WaitEv) (s : WSys Directory (Go (Option Response)))
    (hexec : (WSys.initial d0).execAll (serverTask jobs fun i => (jobs i).code C) es = .ok s)
    (hlt : dirUpdates ops0 + ((left es).countP fun i => jobs i = .epochUpdate) < 2 ^ 64) :
    (∃ d log, dirAfter C t0 sk vk size r₁ r₂ (ops0 ++ (left es).flatMap fun i => Job.ops (jobs i)) = some (d, log) ∧
      ((∀ i p, s.phase i = .running p → (jobs i).acquire = .read) → s.mem = d)) ∧
    ∀ k i, (left es)[k]? = some i → ∃ dk logk dk' r,
      dirAfter C t0 sk vk size r₁ r₂ (ops0 ++ ((left es).take k).flatMap fun i => Job.ops (jobs i)) = some (dk, logk) ∧
      (jobs i).apply C dk = some (dk', r) ∧ s.phase i = .done (some r) := by
  have D := code_disciplined C jobs
  obtain ⟨ls, t, R, hf⟩ := refines_execAll D _ (winv_initial _ d0) (refines_initial _ d0) hexec
  simp only [finished, List.nil_append] at hf
  obtain ⟨⟨d, log, h1, h2⟩, h3⟩ := C45_code C t0 sk vk size r₁ r₂ ops0 d0 log0 h0 jobs hsane ls t R.exec (by rw [hf]; exact hlt)
  rw [hf] at h1 h3
  refine ⟨⟨d, log, h1, fun hno => ?_⟩, fun k i hk => ?_⟩
  · rw [← R.mem]
    apply h2
    obtain ⟨act, L⟩ := execAll_inv D d0 ls t R.exec
    cases hw : t.lock.writer with
    | false => rfl
    | true =>
      obtain ⟨j, hj, ha⟩ := L.writer.mp hw
      obtain ⟨p, hp⟩ := (L.isRunning j).mpr hj
      rw [R.phase j] at hp
      have := hno j p (coarse_running hp)
      simp only [serverTask] at ha
      rw [this] at ha; cases ha
  · obtain ⟨dk, logk, dk', r, g1, g2, g3⟩ := h3 k i hk
    refine ⟨dk, logk, dk', r, g1, g2, ?_⟩
    rw [R.phase i] at g3
    cases hp : s.phase i <;> rw [hp] at g3 <;> simp [WPhase.coarse] at g3
    rw [g3]

/-- C78. No schedule makes the server give back a lock it does not hold; and whenever somebody has asked for the lock and has not given it
back, somebody who has asked can move, whether or not anybody else comes. -/
theorem C78_no_deadlock (C : Crypto) (jobs : Nat → Job) (d0 : Directory) (es : List WaitEv) :
    (WSys.initial d0).execAll (serverTask jobs fun i => (jobs i).code C) es ≠ .fatal ∧
    ∀ s, (WSys.initial d0).execAll (serverTask jobs fun i => (jobs i).code C) es = .ok s →
      ∀ i, s.phase i ≠ .away → (∀ r, s.phase i ≠ .done r) →
        ∃ e s', (∀ j, e ≠ .call j) ∧ s.exec (serverTask jobs fun i => (jobs i).code C) e = .ok s' := by
  have D := code_disciplined C jobs
  refine ⟨execAll_not_fatal D es (winv_initial _ d0), fun s hs i h1 h2 => ?_⟩
  have inv := winv_execAll D es (winv_initial _ d0) hs
  exact waiting_progress D inv h1 h2

/-- C78. A lookup is overtaken by at most one registration, update or reload: from the moment a lookup (or monitoring request) asks for
the lock until it has given it back, at most one writer enters, whatever else is waiting. -/
theorem C78_reader_waits_for_one_writer (C : Crypto) (jobs : Nat → Job) (d0 : Directory) (es₀ es : List WaitEv)
    (s₀ s₁ s₂ : WSys Directory (Go (Option Response))) (i : Nat)
    (h0 : (WSys.initial d0).execAll (serverTask jobs fun i => (jobs i).code C) es₀ = .ok s₀)
    (hread : (jobs i).acquire = .read)
    (hcall : s₀.exec (serverTask jobs fun i => (jobs i).code C) (.call i) = .ok s₁)
    (h : s₁.execAll (serverTask jobs fun i => (jobs i).code C) es = .ok s₂) (hnot : ∀ r, s₂.phase i ≠ .done r) :
    (es.countP fun e => match e with | .enter _ => true | _ => false) ≤ 1 := by
  have D := code_disciplined C jobs
  have inv0 := winv_execAll D es₀ (winv_initial _ d0) h0
  have inv1 := winv_exec D inv0 hcall
  refine behind_execAll D (i := i) es (k := 1) inv1 ?_ h hnot
  rcases exec_ok_cases hcall with ⟨j, e, _, _, _, rfl⟩ | ⟨j, w, e, hp, ha, hw, rfl⟩ | ⟨j, e, _, hc, _⟩ | ⟨j, e, _⟩ | ⟨j, e, _⟩ |
    ⟨j, e, _⟩ | ⟨j, _, _, e, _⟩ | ⟨j, _, e, _⟩ | ⟨j, _, e, _⟩ <;> cases e
  · exact .inl List.mem_cons_self
  · refine .inr ⟨List.mem_cons_self, w, hw, ?_⟩
    rcases (inv0.writer w hw).2 with g | ⟨p, g⟩
    · have hne : w ≠ i := fun e => by rw [e, hp] at g; cases g
      exact .inr ⟨by simp only [setW_ne _ _ hne]; exact g, Nat.le_refl _⟩
    · have hne : w ≠ i := fun e => by rw [e, hp] at g; cases g
      exact .inl ⟨p, by simp only [setW_ne _ _ hne]; exact g⟩
  · simp only [serverTask] at hc; rw [hread] at hc; cases hc

/-- C78. No lookup overtakes a waiting update: as long as a writer waits for the readers inside to leave, nobody who had not yet asked for
the lock when it began to wait gets in, however many come. -/
theorem C78_writer_not_overtaken (C : Crypto) (jobs : Nat → Job) (d0 : Directory) (es₀ es : List WaitEv)
    (s s' : WSys Directory (Go (Option Response))) (i j : Nat)
    (h0 : (WSys.initial d0).execAll (serverTask jobs fun i => (jobs i).code C) es₀ = .ok s)
    (h : s.execAll (serverTask jobs fun i => (jobs i).code C) es = .ok s')
    (hi : s.phase i = .pending) (hi' : s'.phase i = .pending) (hj : s.phase j = .away) :
    (∀ p, s'.phase j ≠ .running p) ∧ ∀ r, s'.phase j ≠ .done r := by
  have D := code_disciplined C jobs
  have inv := winv_execAll D es₀ (winv_initial _ d0) h0
  have hout : Outside j s := by
    refine ⟨fun hin => ?_, .inl hj⟩
    rcases (inv.insideOut j hin).2 with g | ⟨p, g⟩ <;> rw [hj] at g <;> cases g
  have := (outside_execAll D es inv hi hi' hout h).2
  constructor <;> intro x hx <;> rw [hx] at this <;> rcases this with g | g | g <;> cases g

/-- 0 and 3 look up alice, 2 updates, all others reload an unreadable configuration -/
def waitJobs (i : Nat) : Job :=
  if i = 0 ∨ i = 3 then .request none ⟨1, .keyLookup ⟨[0x61]⟩⟩
  else if i = 2 then .epochUpdate
  else .reload none

theorem waitJobs_sane : ∀ i, Job.Sane (waitJobs i) := by
  intro i
  unfold waitJobs
  repeat' split
  all_goals simp [Job.Sane, NonNil]

/-- a lookup is inside; an update and a reload come and wait; a second lookup comes and waits although only a lookup is inside; then the
update goes first, then the second lookup, then the reload -/
def waitSchedule : List WaitEv :=
  [.call 0, .call 2, .claim 2, .call 3, .call 5, .step 0, .leave 0, .enter 2, .step 2, .step 2, .leave 2, .claim 5, .wake 3, .step 3, .leave 3,
    .enter 5, .step 5, .leave 5]

/-- the hypotheses of C78 are met: this schedule followed by silence is a fair endless execution in which four goroutines ask, two of them
have to wait behind others, and by the theorem all are answered -/
example : ∃ d0 log0 st ev, dirAfter Crypto.toy 5 [1] [2] 10 [3] [4] sampleDir = some (d0, log0) ∧
    Endless (serverTask waitJobs fun i => (waitJobs i).code Crypto.toy) d0 st ev ∧
    RunsAll (serverTask waitJobs fun i => (waitJobs i).code Crypto.toy) st ev ∧
    WritersTakeTurns (serverTask waitJobs fun i => (waitJobs i).code Crypto.toy) st ev ∧
    (st 4).phase 2 = .pending ∧ (st 4).phase 3 = .parked ∧ (st 5).phase 5 = .queued ∧ ∃ m r, 4 ≤ m ∧ (st m).phase 2 = .done (some r) := by
  obtain ⟨d0, log0, h⟩ := sampleDir_runs
  have hx : ∃ s', (WSys.initial d0).execAll (serverTask waitJobs fun i => (waitJobs i).code Crypto.toy) waitSchedule = .ok s' ∧
      ∀ i, s'.phase i = .away ∨ ∃ r, s'.phase i = .done r := by
    refine ⟨_, rfl, fun i => ?_⟩
    simp only [setWPhase]
    by_cases e5 : i = 5
    · simp [e5]
    by_cases e3 : i = 3
    · simp [e3]
    by_cases e2 : i = 2
    · simp [e2]
    by_cases e0 : i = 0
    · simp [e0]
    exact .inl (by simp [e5, e3, e2, e0, WSys.initial])
  obtain ⟨s', h1, h2⟩ := hx
  obtain ⟨E, F, W⟩ := silent_fair _ d0 waitSchedule s' h1 h2
  have hp : (statesOf (serverTask waitJobs fun i => (waitJobs i).code Crypto.toy) (WSys.initial d0) waitSchedule 4).phase 2 = .pending := rfl
  obtain ⟨m, r, hm, hr, -⟩ := C78_answered Crypto.toy 5 [1] [2] 10 [3] [4] sampleDir d0 log0 h waitJobs waitJobs_sane _ _ E F W 2 4
    (by rw [hp]; exact fun h => by cases h)
  refine ⟨d0, log0, _, _, h, E, F, W, hp, rfl, rfl, m, none, hm, ?_⟩
  · have hend : ∀ n, waitSchedule.length ≤ n → _ := fun n hn => (statesOf_next _ waitSchedule _ s' h1 n).2 hn
    have := hend (max m waitSchedule.length) (by omega)
    have hq := still_done E hr (max m waitSchedule.length) (by omega)
    rw [this] at hq
    have : s'.phase 2 = .done (some none) := by
      have e : (WSys.initial d0).execAll (serverTask waitJobs fun i => (waitJobs i).code Crypto.toy) waitSchedule = .ok s' := h1
      cases e
      rfl
    rw [this] at hq
    rw [hr, ← hq]

/-- the bound of `C78_reader_waits_for_one_writer` is reached: the second lookup asks, the update enters before it -/
example (d0 : Directory) : ∃ s₀ s₁ s₂, (WSys.initial d0).execAll (serverTask waitJobs fun i => (waitJobs i).code Crypto.toy)
      [.call 0, .call 2, .claim 2] = .ok s₀ ∧ s₀.exec (serverTask waitJobs fun i => (waitJobs i).code Crypto.toy) (.call 3) = .ok s₁ ∧
    s₁.execAll (serverTask waitJobs fun i => (waitJobs i).code Crypto.toy) [.step 0, .leave 0, .enter 2, .step 2, .step 2, .leave 2] = .ok s₂ ∧
    s₂.phase 3 = .parked ∧ s₀.phase 2 = .pending ∧ s₀.phase 3 = .away :=
  ⟨_, _, _, rfl, rfl, rfl, rfl, rfl, rfl⟩

/-- after the update has left, the reload cannot pass the lookup that was waiting -/
example (d0 : Directory) : (WSys.initial d0).execAll (serverTask waitJobs fun i => (waitJobs i).code Crypto.toy)
      [.call 0, .call 2, .claim 2, .call 3, .call 5, .step 0, .leave 0, .enter 2, .step 2, .step 2, .leave 2, .claim 5, .enter 5] = .blocked := rfl

/-! ### Why the lock must prefer waiting writers -/

/-- 0 updates, everybody else looks up alice -/
def crowdJobs (i : Nat) : Job := if i = 0 then .epochUpdate else .request none ⟨1, .keyLookup ⟨[0x61]⟩⟩

/-- lookup `k + 2` enters before lookup `k + 1` leaves -/
def crowdEv (n : Nat) : LockEv :=
  if n = 0 then .lock 1
  else if n % 3 = 1 then .lock (n / 3 + 2)
  else if n % 3 = 2 then .step (n / 3 + 1)
  else .unlock (n / 3)

/-- The states of an execution of the plain lock (`Model/Lock.lean`), which lets readers in whenever no writer is inside. -/
def crowdSt (C : Crypto) (d0 : Directory) : Nat → Sys Directory (Go (Option Response))
  | 0 => Sys.initial d0
  | n + 1 => match (crowdSt C d0 n).exec (serverTask crowdJobs fun i => (crowdJobs i).code C) (crowdEv n) with
    | .ok s => s
    | _ => crowdSt C d0 n

/-- what is true after `3 k + 1` steps: exactly lookup `k + 1` is inside -/
structure Crowd (C : Crypto) (d0 : Directory) (k : Nat) (s : Sys Directory (Go (Option Response))) : Prop where
  lock : s.lock = ⟨1, false⟩
  mem : s.mem = d0
  inside : s.phase (k + 1) = .running ((crowdJobs 1).code C)
  idle : ∀ j, j = 0 ∨ k + 1 < j → s.phase j = .idle
  done : ∀ j, 1 ≤ j → j ≤ k → ∃ r, s.phase j = .done r

theorem crowd_body (C : Crypto) (i : Nat) (h : i ≠ 0) : serverTask crowdJobs (fun i => (crowdJobs i).code C) i =
    { acquire := .read, body := (crowdJobs 1).code C, release := .read } := by
  have : crowdJobs i = crowdJobs 1 := by simp [crowdJobs, h]
  simp only [serverTask, this]; rfl

theorem crowd_round (C : Crypto) (d0 : Directory) (k : Nat) (h : Crowd C d0 k (crowdSt C d0 (3 * k + 1))) :
    (∃ r, crowdSt C d0 (3 * k + 2) = { crowdSt C d0 (3 * k + 1) with
        lock := ⟨2, false⟩, phase := setPhase (crowdSt C d0 (3 * k + 1)).phase (k + 2) (.running ((crowdJobs 1).code C)) } ∧
      (crowdSt C d0 (3 * k + 1)).exec (serverTask crowdJobs fun i => (crowdJobs i).code C) (crowdEv (3 * k + 1)) =
        .ok (crowdSt C d0 (3 * k + 2)) ∧
      crowdSt C d0 (3 * k + 3) = { crowdSt C d0 (3 * k + 2) with
        phase := setPhase (crowdSt C d0 (3 * k + 2)).phase (k + 1) (.running (.ret r)) } ∧
      (crowdSt C d0 (3 * k + 2)).exec (serverTask crowdJobs fun i => (crowdJobs i).code C) (crowdEv (3 * k + 2)) =
        .ok (crowdSt C d0 (3 * k + 3)) ∧
      crowdSt C d0 (3 * k + 4) = { crowdSt C d0 (3 * k + 3) with
        lock := ⟨1, false⟩, phase := setPhase (crowdSt C d0 (3 * k + 3)).phase (k + 1) (.done r) } ∧
      (crowdSt C d0 (3 * k + 3)).exec (serverTask crowdJobs fun i => (crowdJobs i).code C) (crowdEv (3 * k + 3)) =
        .ok (crowdSt C d0 (3 * k + 4))) := by
  have e1 : crowdEv (3 * k + 1) = .lock (k + 2) := by
    simp only [crowdEv]; rw [if_neg (by omega), if_pos (by omega)]; congr 1; omega
  have e2 : crowdEv (3 * k + 2) = .step (k + 1) := by
    simp only [crowdEv]; rw [if_neg (by omega), if_neg (by omega), if_pos (by omega)]; congr 1; omega
  have e3 : crowdEv (3 * k + 3) = .unlock (k + 1) := by
    simp only [crowdEv]; rw [if_neg (by omega), if_neg (by omega), if_neg (by omega)]; congr 1; omega
  have x1 : (crowdSt C d0 (3 * k + 1)).exec (serverTask crowdJobs fun i => (crowdJobs i).code C) (.lock (k + 2)) =
      .ok { crowdSt C d0 (3 * k + 1) with
        lock := ⟨2, false⟩, phase := setPhase (crowdSt C d0 (3 * k + 1)).phase (k + 2) (.running ((crowdJobs 1).code C)) } := by
    simp only [Sys.exec, h.idle (k + 2) (by omega), crowd_body C (k + 2) (by omega), h.lock, RWLock.take]
    rfl
  have s1 : crowdSt C d0 (3 * k + 2) = { crowdSt C d0 (3 * k + 1) with
        lock := ⟨2, false⟩, phase := setPhase (crowdSt C d0 (3 * k + 1)).phase (k + 2) (.running ((crowdJobs 1).code C)) } := by
    show (match (crowdSt C d0 (3 * k + 1)).exec (serverTask crowdJobs fun i => (crowdJobs i).code C) (crowdEv (3 * k + 1)) with
      | .ok s => s | _ => crowdSt C d0 (3 * k + 1)) = _
    rw [e1, x1]
  have p1 : (crowdSt C d0 (3 * k + 2)).phase (k + 1) = .running ((crowdJobs 1).code C) := by
    rw [s1]; exact (setPhase_ne _ _ _ _ (by omega)).trans h.inside
  obtain ⟨r, hr⟩ : ∃ r, (crowdSt C d0 (3 * k + 2)).exec (serverTask crowdJobs fun i => (crowdJobs i).code C) (.step (k + 1)) =
      .ok { crowdSt C d0 (3 * k + 2) with phase := setPhase (crowdSt C d0 (3 * k + 2)).phase (k + 1) (.running (.ret r)) } := by
    refine ⟨((crowdSt C d0 (3 * k + 2)).mem.handleRequests C none ⟨1, .keyLookup ⟨[0x61]⟩⟩).map fun x => some x.2, ?_⟩
    simp only [Sys.exec, p1]
    rfl
  have s2 : crowdSt C d0 (3 * k + 3) = { crowdSt C d0 (3 * k + 2) with
        phase := setPhase (crowdSt C d0 (3 * k + 2)).phase (k + 1) (.running (.ret r)) } := by
    show (match (crowdSt C d0 (3 * k + 2)).exec (serverTask crowdJobs fun i => (crowdJobs i).code C) (crowdEv (3 * k + 2)) with
      | .ok s => s | _ => crowdSt C d0 (3 * k + 2)) = _
    rw [e2, hr]
  have p2 : (crowdSt C d0 (3 * k + 3)).phase (k + 1) = .running (.ret r) := by rw [s2]; exact setPhase_same _ _ _
  have l2 : (crowdSt C d0 (3 * k + 3)).lock = ⟨2, false⟩ := by rw [s2, s1]
  have x3 : (crowdSt C d0 (3 * k + 3)).exec (serverTask crowdJobs fun i => (crowdJobs i).code C) (.unlock (k + 1)) =
      .ok { crowdSt C d0 (3 * k + 3) with
        lock := ⟨1, false⟩, phase := setPhase (crowdSt C d0 (3 * k + 3)).phase (k + 1) (.done r) } := by
    simp only [Sys.exec, p2, crowd_body C (k + 1) (by omega), l2, RWLock.give]
    rfl
  have s3 : crowdSt C d0 (3 * k + 4) = { crowdSt C d0 (3 * k + 3) with
        lock := ⟨1, false⟩, phase := setPhase (crowdSt C d0 (3 * k + 3)).phase (k + 1) (.done r) } := by
    show (match (crowdSt C d0 (3 * k + 3)).exec (serverTask crowdJobs fun i => (crowdJobs i).code C) (crowdEv (3 * k + 3)) with
      | .ok s => s | _ => crowdSt C d0 (3 * k + 3)) = _
    rw [e3, x3]
  exact ⟨r, s1, by rw [e1, x1, s1], s2, by rw [e2, hr, s2], s3, by rw [e3, x3, s3]⟩

theorem crowd_all (C : Crypto) (d0 : Directory) (k : Nat) : Crowd C d0 k (crowdSt C d0 (3 * k + 1)) := by
  induction k with
  | zero =>
    refine ⟨rfl, rfl, rfl, fun j hj => ?_, fun j h1 h2 => by omega⟩
    exact setPhase_ne _ _ _ _ (by omega)
  | succ k ih =>
    obtain ⟨r, s1, _, s2, _, s3, _⟩ := crowd_round C d0 k ih
    rw [show 3 * (k + 1) + 1 = 3 * k + 4 by omega]
    refine ⟨by rw [s3], by rw [s3, s2, s1]; exact ih.mem, ?_, fun j hj => ?_, fun j h1 h2 => ?_⟩
    · rw [s3]; refine (setPhase_ne _ _ _ _ (by omega)).trans ?_
      rw [s2]; refine (setPhase_ne _ _ _ _ (by omega)).trans ?_
      rw [s1]; exact setPhase_same _ _ _
    · rw [s3]; refine (setPhase_ne _ _ _ _ (by omega)).trans ?_
      rw [s2]; refine (setPhase_ne _ _ _ _ (by omega)).trans ?_
      rw [s1]; refine (setPhase_ne _ _ _ _ (by omega)).trans ?_
      exact ih.idle j (by omega)
    · rcases Nat.lt_or_ge j (k + 1) with h | h
      · obtain ⟨r', hr'⟩ := ih.done j h1 (by omega)
        refine ⟨r', ?_⟩
        rw [s3]; refine (setPhase_ne _ _ _ _ (by omega)).trans ?_
        rw [s2]; refine (setPhase_ne _ _ _ _ (by omega)).trans ?_
        rw [s1]; exact (setPhase_ne _ _ _ _ (by omega)).trans hr'
      · have : j = k + 1 := by omega
        subst this
        exact ⟨r, by rw [s3]; exact setPhase_same _ _ _⟩

/-- C78 needs a lock that prefers waiting writers, as Go's does: with a lock that lets a lookup in whenever no writer is inside
(the lock of `Model/Lock.lean`), there is an endless execution in which every lookup is answered and the epoch update, although it
could ask at any time, never gets the lock: at every moment from the first step on a lookup is inside. -/
theorem C78_reader_preference_counterexample (C : Crypto) (d0 : Directory) :
    (∀ n, (crowdSt C d0 n).exec (serverTask crowdJobs fun i => (crowdJobs i).code C) (crowdEv n) = .ok (crowdSt C d0 (n + 1))) ∧
    (∀ i, 1 ≤ i → ∃ m r, (crowdSt C d0 m).phase i = .done r) ∧
    (∀ n, 1 ≤ n → (crowdSt C d0 n).phase 0 = .idle ∧
      (crowdSt C d0 n).exec (serverTask crowdJobs fun i => (crowdJobs i).code C) (.lock 0) = .blocked) := by
  have stuck : ∀ s : Sys Directory (Go (Option Response)), s.phase 0 = .idle → s.lock.readers ≠ 0 →
      s.exec (serverTask crowdJobs fun i => (crowdJobs i).code C) (.lock 0) = .blocked := by
    intro s h1 h2
    have : (serverTask crowdJobs fun i => (crowdJobs i).code C) 0 =
      { acquire := .write, body := Job.epochUpdate.code C, release := .write } := rfl
    simp [Sys.exec, h1, this, RWLock.take, h2]
  have split3 : ∀ n, 1 ≤ n → ∃ k, n = 3 * k + 1 ∨ n = 3 * k + 2 ∨ n = 3 * k + 3 := fun n hn => ⟨(n - 1) / 3, by omega⟩
  refine ⟨fun n => ?_, fun i hi => ⟨3 * i + 1, (crowd_all C d0 i).done i hi (Nat.le_refl _)⟩, fun n hn => ?_⟩
  · rcases Nat.eq_zero_or_pos n with h | h
    · subst h; rfl
    · obtain ⟨k, e⟩ := split3 n h
      obtain ⟨r, s1, x1, s2, x2, s3, x3⟩ := crowd_round C d0 k (crowd_all C d0 k)
      rcases e with e | e | e <;> subst e
      · exact x1
      · exact x2
      · exact x3
  · obtain ⟨k, e⟩ := split3 n hn
    have hc := crowd_all C d0 k
    obtain ⟨r, s1, x1, s2, x2, s3, x3⟩ := crowd_round C d0 k hc
    have i1 := hc.idle 0 (.inl rfl)
    have i2 : (crowdSt C d0 (3 * k + 2)).phase 0 = .idle := by rw [s1]; simp only; rw [setPhase_ne _ _ _ _ (by omega)]; exact i1
    have i3 : (crowdSt C d0 (3 * k + 3)).phase 0 = .idle := by rw [s2]; simp only; rw [setPhase_ne _ _ _ _ (by omega)]; exact i2
    rcases e with e | e | e <;> subst e
    · exact ⟨i1, stuck _ i1 (by rw [hc.lock]; simp)⟩
    · exact ⟨i2, stuck _ i2 (by rw [s1]; simp)⟩
    · exact ⟨i3, stuck _ i3 (by rw [s2, s1]; simp)⟩

end Coniks.Props
