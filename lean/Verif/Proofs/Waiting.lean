import Verif.Spec.Waiting
import Verif.Proofs.Lock
/-
Waiting for the lock: invariants, the refinement to `Model/Lock.lean`, liveness.
-/
namespace Coniks
open Spec

variable {σ ρ : Type}

theorem setW_same (f : Nat → WPhase σ ρ) (i : Nat) (p : WPhase σ ρ) : setWPhase f i p i = p := by simp [setWPhase]
theorem setW_ne (f : Nat → WPhase σ ρ) {i j : Nat} (p : WPhase σ ρ) (h : j ≠ i) : setWPhase f i p j = f j := by simp [setWPhase, h]

structure WInv (T : Nat → Task σ ρ) (s : WSys σ ρ) : Prop where
  insideNodup : s.inside.Nodup
  parkedNodup : s.parked.Nodup
  disjoint : ∀ i, i ∈ s.inside → i ∉ s.parked
  parkedIn : ∀ i, s.phase i = .parked → i ∈ s.inside ∨ i ∈ s.parked
  parkedOut : ∀ i, i ∈ s.parked → s.phase i = .parked ∧ (T i).acquire = .read ∧ ∃ w, s.writer = some w
  insideOut : ∀ i, i ∈ s.inside → (T i).acquire = .read ∧ (s.phase i = .parked ∨ ∃ p, s.phase i = .running p)
  reading : ∀ i p, s.phase i = .running p → (T i).acquire = .read → i ∈ s.inside
  writing : ∀ i p, s.phase i = .running p → (T i).acquire = .write → s.writer = some i ∧ s.inside = []
  writer : ∀ i, s.writer = some i → (T i).acquire = .write ∧ (s.phase i = .pending ∨ ∃ p, s.phase i = .running p)
  pending : ∀ i, s.phase i = .pending → s.writer = some i
  queued : ∀ i, s.phase i = .queued → (T i).acquire = .write

theorem winv_initial (T : Nat → Task σ ρ) (m0 : σ) : WInv T (WSys.initial m0) := by
  refine ⟨List.nodup_nil, List.nodup_nil, ?_, ?_, ?_, ?_, ?_, ?_, ?_, ?_, ?_⟩ <;> intro i <;> simp [WSys.initial]

/-- the ways in which a step can happen -/
theorem exec_ok_cases {T : Nat → Task σ ρ} {s s' : WSys σ ρ} {e : WaitEv} (h : s.exec T e = .ok s') :
    (∃ i, e = .call i ∧ s.phase i = .away ∧ (T i).acquire = .read ∧ s.writer = none ∧
      s' = { s with inside := i :: s.inside, phase := setWPhase s.phase i (.running (T i).body) }) ∨
    (∃ i w, e = .call i ∧ s.phase i = .away ∧ (T i).acquire = .read ∧ s.writer = some w ∧
      s' = { s with parked := i :: s.parked, phase := setWPhase s.phase i .parked }) ∨
    (∃ i, e = .call i ∧ s.phase i = .away ∧ (T i).acquire = .write ∧ s' = { s with phase := setWPhase s.phase i .queued }) ∨
    (∃ i, e = .claim i ∧ s.phase i = .queued ∧ s.writer = none ∧
      s' = { s with writer := some i, phase := setWPhase s.phase i .pending }) ∨
    (∃ i, e = .enter i ∧ s.phase i = .pending ∧ s.inside = [] ∧ s' = { s with phase := setWPhase s.phase i (.running (T i).body) }) ∨
    (∃ i, e = .wake i ∧ s.phase i = .parked ∧ i ∈ s.inside ∧ s' = { s with phase := setWPhase s.phase i (.running (T i).body) }) ∨
    (∃ i w n, e = .step i ∧ s.phase i = .running (.act w n) ∧
      s' = { s with mem := w s.mem, phase := setWPhase s.phase i (.running (n s.mem)) }) ∨
    (∃ i r, e = .leave i ∧ s.phase i = .running (.ret r) ∧ (T i).release = .read ∧ i ∈ s.inside ∧
      s' = { s with inside := s.inside.erase i, phase := setWPhase s.phase i (.done r) }) ∨
    (∃ i r, e = .leave i ∧ s.phase i = .running (.ret r) ∧ (T i).release = .write ∧ s.writer = some i ∧
      s' = { s with inside := s.parked ++ s.inside, parked := [], writer := none, phase := setWPhase s.phase i (.done r) }) := by
  cases e with
  | call i =>
    simp only [WSys.exec] at h
    split at h
    · rename_i hp
      split at h
      · rename_i ha
        split at h
        · rename_i hw; cases h; exact .inl ⟨i, rfl, hp, ha, hw, rfl⟩
        · rename_i w hw; cases h; exact .inr (.inl ⟨i, w, rfl, hp, ha, hw, rfl⟩)
      · rename_i ha; cases h; exact .inr (.inr (.inl ⟨i, rfl, hp, ha, rfl⟩))
    · cases h
  | claim i =>
    simp only [WSys.exec] at h
    split at h
    · rename_i hp
      split at h
      · rename_i hw; cases h; exact .inr (.inr (.inr (.inl ⟨i, rfl, hp, hw, rfl⟩)))
      · cases h
    · cases h
  | enter i =>
    simp only [WSys.exec] at h
    split at h
    · rename_i hp
      split at h
      · rename_i hw; cases h; exact .inr (.inr (.inr (.inr (.inl ⟨i, rfl, hp, hw, rfl⟩))))
      · cases h
    · cases h
  | wake i =>
    simp only [WSys.exec] at h
    split at h
    · rename_i hp
      split at h
      · rename_i hw; cases h; exact .inr (.inr (.inr (.inr (.inr (.inl ⟨i, rfl, hp, hw, rfl⟩)))))
      · cases h
    · cases h
  | step i =>
    simp only [WSys.exec] at h
    split at h
    · rename_i w n hp; cases h; exact .inr (.inr (.inr (.inr (.inr (.inr (.inl ⟨i, w, n, rfl, hp, rfl⟩))))))
    · cases h
  | leave i =>
    simp only [WSys.exec] at h
    split at h
    · rename_i r hp
      split at h
      · rename_i ha
        split at h
        · rename_i hi; cases h; exact .inr (.inr (.inr (.inr (.inr (.inr (.inr (.inl ⟨i, r, rfl, hp, ha, hi, rfl⟩)))))))
        · cases h
      · rename_i ha
        split at h
        · rename_i hi; cases h; exact .inr (.inr (.inr (.inr (.inr (.inr (.inr (.inr ⟨i, r, rfl, hp, ha, hi, rfl⟩)))))))
        · cases h
    · cases h

theorem winv_exec {T : Nat → Task σ ρ} (D : Disciplined T) {s s' : WSys σ ρ} {e : WaitEv} (inv : WInv T s) (h : s.exec T e = .ok s') :
    WInv T s' := by
  have hsame := D.same
  obtain ⟨h1, h2, h3, h4, h5, h6, h7, h8, h9, h10, h11⟩ := inv
  rcases exec_ok_cases h with ⟨i, rfl, hp, ha, hw, rfl⟩ | ⟨i, w, rfl, hp, ha, hw, rfl⟩ | ⟨i, rfl, hp, ha, rfl⟩ |
    ⟨i, rfl, hp, hw, rfl⟩ | ⟨i, rfl, hp, hw, rfl⟩ | ⟨i, rfl, hp, hw, rfl⟩ | ⟨i, w, n, rfl, hp, rfl⟩ | ⟨i, r, rfl, hp, ha, hi, rfl⟩ |
    ⟨i, r, rfl, hp, ha, hi, rfl⟩
  · constructor <;> grind [setWPhase]
  · constructor <;> grind [setWPhase]
  · constructor <;> grind [setWPhase]
  · constructor <;> grind [setWPhase]
  · constructor <;> grind [setWPhase]
  · constructor <;> grind [setWPhase]
  · constructor <;> grind [setWPhase]
  · constructor <;> grind [setWPhase]
  · constructor <;> grind [setWPhase]

/-! ### Refinement -/

/-- a phase as `Model/Lock.lean` sees it -/
def WPhase.coarse : WPhase σ ρ → Phase σ ρ
  | .running p => .running p
  | .done r => .done r
  | _ => .idle

/-- the state as `Model/Lock.lean` sees it, after the schedule `es` -/
structure Refines (T : Nat → Task σ ρ) (m0 : σ) (s : WSys σ ρ) (es : List LockEv) (t : Sys σ ρ) : Prop where
  exec : (Sys.initial m0).execAll T es = .ok t
  mem : t.mem = s.mem
  phase : ∀ i, t.phase i = (s.phase i).coarse

theorem coarse_running {q : WPhase σ ρ} {p : Prog σ ρ} (h : q.coarse = .running p) : q = .running p := by
  cases q <;> simp [WPhase.coarse] at h ⊢; exact h

theorem execAll_append (T : Nat → Task σ ρ) (a b : List LockEv) : ∀ s t : Sys σ ρ, s.execAll T a = .ok t →
    s.execAll T (a ++ b) = t.execAll T b := by
  induction a with
  | nil => intro s t h; simp only [Sys.execAll, Outcome.ok.injEq] at h; subst h; rfl
  | cons e a ih =>
    intro s t h
    simp only [List.cons_append, Sys.execAll] at h ⊢
    split at h <;> try cases h
    rename_i s1 h1
    exact ih _ _ h

theorem refines_next {T : Nat → Task σ ρ} {m0 : σ} {s s' : WSys σ ρ} {es : List LockEv} {t t' : Sys σ ρ} {e : LockEv}
    (R : Refines T m0 s es t) (h : t.exec T e = .ok t') (hm : t'.mem = s'.mem) (hp : ∀ i, t'.phase i = (s'.phase i).coarse) :
    Refines T m0 s' (es ++ [e]) t' := by
  refine ⟨?_, hm, hp⟩
  rw [execAll_append T es [e] _ t R.exec]
  simp only [Sys.execAll, h]

theorem setPhase_coarse {f : Nat → Phase σ ρ} {g : Nat → WPhase σ ρ} (h : ∀ i, f i = (g i).coarse) (i : Nat) (q : WPhase σ ρ) :
    ∀ j, setPhase f i q.coarse j = (setWPhase g i q j).coarse := by
  intro j
  by_cases e : j = i
  · subst e; rw [setPhase_same, setW_same]
  · rw [setPhase_ne _ _ _ _ e, setW_ne _ _ e]; exact h j

theorem stay_coarse {f : Nat → Phase σ ρ} {g : Nat → WPhase σ ρ} (h : ∀ i, f i = (g i).coarse) (i : Nat) (q : WPhase σ ρ)
    (hg : (g i).coarse = q.coarse) : ∀ j, f j = (setWPhase g i q j).coarse := by
  intro j
  by_cases e : j = i
  · subst e; rw [setW_same, ← hg]; exact h j
  · rw [setW_ne _ _ e]; exact h j

theorem refines_exec {T : Nat → Task σ ρ} (D : Disciplined T) {m0 : σ} {s s' : WSys σ ρ} {e : WaitEv} (inv : WInv T s)
    {es : List LockEv} {t : Sys σ ρ} (R : Refines T m0 s es t) (h : s.exec T e = .ok s') :
    ∃ es' t', Refines T m0 s' es' t' ∧ finished es' = finished es ++ left [e] := by
  obtain ⟨act, L⟩ := execAll_inv D m0 es t R.exec
  have hidle : ∀ i, (s.phase i).coarse = .idle → t.phase i = .idle := fun i h => by rw [R.phase i, h]
  have hrd : ∀ i, t.lock.writer = false → (T i).acquire = .read → t.lock.take (T i).acquire = .ok { t.lock with readers := t.lock.readers + 1 } := by
    intro i hw ha; rw [ha]; simp [RWLock.take, hw]
  have nowriter : (∀ i p, s.phase i = .running p → (T i).acquire = .write → False) → t.lock.writer = false := by
    intro hh
    cases hw : t.lock.writer with
    | false => rfl
    | true =>
      obtain ⟨j, hj, ha⟩ := L.writer.mp hw
      obtain ⟨p, hp⟩ := (L.isRunning j).mpr hj
      rw [R.phase j] at hp
      exact (hh j p (coarse_running hp) ha).elim
  have noreader : (∀ i p, s.phase i = .running p → (T i).acquire = .read → False) → t.lock.readers = 0 := by
    intro hh
    rw [L.readers, List.length_eq_zero_iff, List.eq_nil_iff_forall_not_mem]
    intro j hj
    simp only [readersIn, List.mem_filter, decide_eq_true_eq] at hj
    obtain ⟨p, hp⟩ := (L.isRunning j).mpr hj.1
    rw [R.phase j] at hp
    exact hh j p (coarse_running hp) hj.2
  rcases exec_ok_cases h with ⟨i, rfl, hp, ha, hw, rfl⟩ | ⟨i, w, rfl, hp, ha, hw, rfl⟩ | ⟨i, rfl, hp, ha, rfl⟩ |
    ⟨i, rfl, hp, hw, rfl⟩ | ⟨i, rfl, hp, hw, rfl⟩ | ⟨i, rfl, hp, hw, rfl⟩ | ⟨i, w, n, rfl, hp, rfl⟩ | ⟨i, r, rfl, hp, ha, hi, rfl⟩ |
    ⟨i, r, rfl, hp, ha, hi, rfl⟩
  · have hl := hrd i (nowriter fun j p hj gj => by rw [(inv.writing j p hj gj).1] at hw; cases hw) ha
    have hx : t.exec T (.lock i) = .ok { t with lock := { t.lock with readers := t.lock.readers + 1 }, phase := setPhase t.phase i (.running (T i).body) } := by
      simp only [Sys.exec, hidle i (by rw [hp]; rfl), hl]
    exact ⟨es ++ [.lock i], _, refines_next R hx (by exact R.mem) (by exact setPhase_coarse R.phase i (.running _)), by simp [finished_append, finished, left]⟩
  · exact ⟨es, t, ⟨R.exec, R.mem, stay_coarse R.phase i _ (by rw [hp]; rfl)⟩, by simp [left]⟩
  · exact ⟨es, t, ⟨R.exec, R.mem, stay_coarse R.phase i _ (by rw [hp]; rfl)⟩, by simp [left]⟩
  · exact ⟨es, t, ⟨R.exec, R.mem, stay_coarse R.phase i _ (by rw [hp]; rfl)⟩, by simp [left]⟩
  · have hwi := inv.pending i hp
    have hr := noreader fun j p hj gj => by have := inv.reading j p hj gj; rw [hw] at this; simp at this
    have hnw := nowriter fun j p hj gj => by
      have := (inv.writing j p hj gj).1
      rw [hwi] at this; cases this; rw [hp] at hj; cases hj
    have hl : t.lock.take (T i).acquire = .ok { t.lock with writer := true } := by
      rw [(inv.writer i hwi).1]; simp [RWLock.take, hnw, hr]
    have hx : t.exec T (.lock i) = .ok { t with lock := { t.lock with writer := true }, phase := setPhase t.phase i (.running (T i).body) } := by
      simp only [Sys.exec, hidle i (by rw [hp]; rfl), hl]
    exact ⟨es ++ [.lock i], _, refines_next R hx (by exact R.mem) (by exact setPhase_coarse R.phase i (.running _)), by simp [finished_append, finished, left]⟩
  · have hl := hrd i (nowriter fun j p hj gj => by rw [(inv.writing j p hj gj).2] at hw; simp at hw) (inv.insideOut i hw).1
    have hx : t.exec T (.lock i) = .ok { t with lock := { t.lock with readers := t.lock.readers + 1 }, phase := setPhase t.phase i (.running (T i).body) } := by
      simp only [Sys.exec, hidle i (by rw [hp]; rfl), hl]
    exact ⟨es ++ [.lock i], _, refines_next R hx (by exact R.mem) (by exact setPhase_coarse R.phase i (.running _)), by simp [finished_append, finished, left]⟩
  · have ht : t.phase i = .running (.act w n) := by rw [R.phase i, hp]; rfl
    have hx : t.exec T (.step i) = .ok { t with mem := w t.mem, phase := setPhase t.phase i (.running (n t.mem)) } := by
      simp only [Sys.exec, ht]
    refine ⟨es ++ [.step i], _, refines_next R hx (by simp only [R.mem]) ?_, by simp [finished_append, finished, left]⟩
    simp only [R.mem]; exact setPhase_coarse R.phase i (.running _)
  all_goals
    have ht : t.phase i = .running (.ret r) := by rw [R.phase i, hp]; rfl
    obtain ⟨l, hg⟩ : ∃ l, t.lock.give (T i).release = .ok l := by
      rcases give_ok D L ht with ⟨_, _, _, hg⟩ | ⟨_, _, _, hg⟩ <;> exact ⟨_, hg⟩
    have hx : t.exec T (.unlock i) = .ok { t with lock := l, phase := setPhase t.phase i (.done r) } := by
      simp only [Sys.exec, ht, hg]
    exact ⟨es ++ [.unlock i], _, refines_next R hx (by exact R.mem) (by exact setPhase_coarse R.phase i (.done _)), by simp [finished_append, finished, left]⟩

/-- no step gives back a lock that is not held -/
theorem exec_not_fatal {T : Nat → Task σ ρ} (D : Disciplined T) {s : WSys σ ρ} (inv : WInv T s) (e : WaitEv) : s.exec T e ≠ .fatal := by
  have hsame := D.same
  obtain ⟨h1, h2, h3, h4, h5, h6, h7, h8, h9, h10, h11⟩ := inv
  cases e <;> simp only [WSys.exec] <;> grind

theorem winv_execAll {T : Nat → Task σ ρ} (D : Disciplined T) (es : List WaitEv) : ∀ {s s' : WSys σ ρ}, WInv T s →
    s.execAll T es = .ok s' → WInv T s' := by
  induction es with
  | nil => intro s s' inv h; simp only [WSys.execAll, Outcome.ok.injEq] at h; subst h; exact inv
  | cons e es ih =>
    intro s s' inv h
    simp only [WSys.execAll] at h
    split at h <;> try cases h
    rename_i s1 h1
    exact ih (winv_exec D inv h1) h

theorem execAll_not_fatal {T : Nat → Task σ ρ} (D : Disciplined T) (es : List WaitEv) : ∀ {s : WSys σ ρ}, WInv T s →
    s.execAll T es ≠ .fatal := by
  induction es with
  | nil => intro s inv h; simp [WSys.execAll] at h
  | cons e es ih =>
    intro s inv h
    simp only [WSys.execAll] at h
    split at h
    · rename_i s1 h1; exact ih (winv_exec D inv h1) h
    · cases h
    · rename_i h1; exact exec_not_fatal D inv e h1

theorem refines_initial (T : Nat → Task σ ρ) (m0 : σ) : Refines T m0 (WSys.initial m0) [] (Sys.initial m0) :=
  ⟨rfl, rfl, fun _ => rfl⟩

theorem left_append (a b : List WaitEv) : left (a ++ b) = left a ++ left b := by
  induction a with
  | nil => rfl
  | cons e a ih => cases e <;> simp [left, ih]

theorem refines_execAll {T : Nat → Task σ ρ} (D : Disciplined T) {m0 : σ} (es : List WaitEv) : ∀ {s s' : WSys σ ρ} {ls : List LockEv} {t : Sys σ ρ},
    WInv T s → Refines T m0 s ls t → s.execAll T es = .ok s' → ∃ ls' t', Refines T m0 s' ls' t' ∧ finished ls' = finished ls ++ left es := by
  induction es with
  | nil => intro s s' ls t inv R h; simp only [WSys.execAll, Outcome.ok.injEq] at h; subst h; exact ⟨ls, t, R, by simp [left]⟩
  | cons e es ih =>
    intro s s' ls t inv R h
    simp only [WSys.execAll] at h
    split at h <;> try cases h
    rename_i s1 h1
    obtain ⟨ls1, t1, R1, f1⟩ := refines_exec D inv R h1
    obtain ⟨ls2, t2, R2, f2⟩ := ih (winv_exec D inv h1) R1 h
    refine ⟨ls2, t2, R2, ?_⟩
    rw [f2, f1, List.append_assoc, ← left_append]; rfl

theorem exec_other {T : Nat → Task σ ρ} {s s' : WSys σ ρ} {e : WaitEv} (h : s.exec T e = .ok s') {i : Nat} (hi : WaitEv.who e ≠ i) :
    s'.phase i = s.phase i := by
  rcases exec_ok_cases h with ⟨j, rfl, _, _, _, rfl⟩ | ⟨j, w, rfl, _, _, _, rfl⟩ | ⟨j, rfl, _, _, rfl⟩ |
    ⟨j, rfl, _, _, rfl⟩ | ⟨j, rfl, _, _, rfl⟩ | ⟨j, rfl, _, _, rfl⟩ | ⟨j, w, n, rfl, _, rfl⟩ | ⟨j, r, rfl, _, _, _, rfl⟩ |
    ⟨j, r, rfl, _, _, _, rfl⟩ <;> exact setW_ne _ _ (fun e => hi (by rw [e]; rfl))

/-! ### Endless executions -/

section
variable {T : Nat → Task σ ρ} {m0 : σ} {st : Nat → WSys σ ρ} {ev : Nat → Option WaitEv}

theorem endless_inv (D : Disciplined T) (E : Endless T m0 st ev) : ∀ n, WInv T (st n) := by
  intro n
  induction n with
  | zero => rw [E.start]; exact winv_initial T m0
  | succ n ih =>
    have := E.next n
    cases he : ev n with
    | none => rw [he] at this; simp only at this; rw [this]; exact ih
    | some e => rw [he] at this; exact winv_exec D ih this

theorem execAll_snoc {s t u : WSys σ ρ} {e : WaitEv} : ∀ {a : List WaitEv}, s.execAll T a = .ok t → t.exec T e = .ok u →
    s.execAll T (a ++ [e]) = .ok u := by
  intro a
  induction a generalizing s with
  | nil => intro h hu; simp only [WSys.execAll, Outcome.ok.injEq] at h; subst h; simp [WSys.execAll, hu]
  | cons x a ih =>
    intro h hu
    simp only [List.cons_append, WSys.execAll] at h ⊢
    split at h <;> try cases h
    exact ih h hu

/-- every prefix of an endless execution is a schedule -/
theorem endless_prefix (E : Endless T m0 st ev) : ∀ n, (WSys.initial m0).execAll T (history ev n) = .ok (st n) := by
  intro n
  induction n with
  | zero => rw [E.start]; rfl
  | succ n ih =>
    have := E.next n
    cases he : ev n with
    | none => rw [he] at this; simp only at this; simp only [history, he, Option.toList_none, List.append_nil, this]; exact ih
    | some e => rw [he] at this; simp only [history, he, Option.toList_some]; exact execAll_snoc ih this

/-- goroutine `i` does nothing between `n` and `m` -/
def Still (ev : Nat → Option WaitEv) (i n m : Nat) : Prop := ∀ k, n ≤ k → k < m → ∀ e, ev k = some e → WaitEv.who e ≠ i

theorem still_refl (i n : Nat) : Still ev i n n := fun k h1 h2 => absurd h2 (by omega)

theorem still_phase (E : Endless T m0 st ev) {i n : Nat} : ∀ m, n ≤ m → Still ev i n m → (st m).phase i = (st n).phase i := by
  intro m
  induction m with
  | zero => intro h _; have : n = 0 := by omega
            rw [this]
  | succ m ih =>
    intro h hs
    rcases Nat.lt_or_ge n (m + 1) with h' | h'
    · have h1 := ih (by omega) (fun k a b => hs k a (by omega))
      have := E.next m
      cases he : ev m with
      | none => rw [he] at this; simp only at this; rw [this]; exact h1
      | some e => rw [he] at this; rw [exec_other this (hs m (by omega) (by omega) e he)]; exact h1
    · have : n = m + 1 := by omega
      rw [this]

/-- a property of the state kept by every step, unless goroutine `i` moves -/
theorem still_keeps (E : Endless T m0 st ev) {i n : Nat} {P : WSys σ ρ → Prop} (D : Disciplined T)
    (hkeep : ∀ s s' e, WInv T s → P s → s.exec T e = .ok s' → WaitEv.who e ≠ i → P s') (h0 : P (st n)) :
    ∀ m, n ≤ m → Still ev i n m → P (st m) := by
  intro m
  induction m with
  | zero => intro h _; have : n = 0 := by omega
            rw [this] at h0; exact h0
  | succ m ih =>
    intro h hs
    rcases Nat.lt_or_ge n (m + 1) with h' | h'
    · have h1 := ih (by omega) (fun k a b => hs k a (by omega))
      have := E.next m
      cases he : ev m with
      | none => rw [he] at this; simp only at this; rw [this]; exact h1
      | some e => rw [he] at this; exact hkeep _ _ e (endless_inv D E m) h1 this (hs m (by omega) (by omega) e he)
    · have : n = m + 1 := by omega
      rw [← this]; exact h0

/-- who can always move as long as it stays, moves; and there is a first move -/
theorem first_move (E : Endless T m0 st ev) (F : RunsAll T st ev) {i n : Nat}
    (hen : ∀ m, n ≤ m → Still ev i n m → Enabled T (st m) (.enter i) ∨ Enabled T (st m) (.wake i) ∨ Enabled T (st m) (.step i) ∨
      Enabled T (st m) (.leave i)) :
    ∃ m e, n ≤ m ∧ Still ev i n m ∧ ev m = some e ∧ WaitEv.who e = i ∧ (st m).exec T e = .ok (st (m + 1)) := by
  have hex : ∃ d e, ev (n + d) = some e ∧ WaitEv.who e = i := by
    apply Classical.byContradiction
    intro hno
    obtain ⟨m, hm, h⟩ := F i n
    have hs : Still ev i n m := by
      intro k h1 _ e he hw
      exact hno ⟨k - n, e, by rw [show n + (k - n) = k by omega]; exact he, hw⟩
    rcases h with ⟨e, he, hw⟩ | ⟨h1, h2, h3, h4⟩
    · exact hno ⟨m - n, e, by rw [show n + (m - n) = m by omega]; exact he, hw⟩
    · rcases hen m hm hs with h | h | h | h
      · exact h1 h
      · exact h2 h
      · exact h3 h
      · exact h4 h
  obtain ⟨d, hd, hmin⟩ : ∃ d, (∃ e, ev (n + d) = some e ∧ WaitEv.who e = i) ∧
      ∀ d', d' < d → ¬ ∃ e, ev (n + d') = some e ∧ WaitEv.who e = i := by
    obtain ⟨d0, h0⟩ := hex
    induction d0 using Nat.strongRecOn with
    | ind d ih =>
      by_cases hh : ∃ d', d' < d ∧ ∃ e, ev (n + d') = some e ∧ WaitEv.who e = i
      · obtain ⟨d', hlt, h'⟩ := hh; exact ih d' hlt h'
      · exact ⟨d, h0, fun d' hlt h' => hh ⟨d', hlt, h'⟩⟩
  obtain ⟨e, he, hw⟩ := hd
  refine ⟨n + d, e, by omega, ?_, he, hw, ?_⟩
  · intro k h1 h2 e' he' hw'
    exact hmin (k - n) (by omega) ⟨e', by rw [show n + (k - n) = k by omega]; exact he', hw'⟩
  · have := E.next (n + d); rw [he] at this; exact this

theorem enabled_of_running (D : Disciplined T) {s : WSys σ ρ} (inv : WInv T s) {i : Nat} {p : Prog σ ρ} (h : s.phase i = .running p) :
    Enabled T s (.step i) ∨ Enabled T s (.leave i) := by
  cases p with
  | act w n => exact .inl ⟨_, by simp only [WSys.exec, h]; rfl⟩
  | ret r =>
    right
    have hs := D.same i
    rcases mode_cases (T i).acquire with g | g
    · exact ⟨_, by simp only [WSys.exec, h, hs, g, if_pos (inv.reading i _ h g)]; rfl⟩
    · exact ⟨_, by simp only [WSys.exec, h, hs, g, if_pos (inv.writing i _ h g).1]; rfl⟩

/-- a section that runs comes to its end -/
theorem running_done (D : Disciplined T) (E : Endless T m0 st ev) (F : RunsAll T st ev) {i : Nat} (p : Prog σ ρ) : ∀ n,
    (st n).phase i = .running p → ∃ m r, n ≤ m ∧ (st m).phase i = .done r := by
  induction p with
  | ret r =>
    intro n h
    obtain ⟨m, e, hm, hs, he, hw, hx⟩ := first_move E F (i := i) (n := n) (fun m hm hs => by
      have := still_phase E m hm hs; rw [h] at this
      exact .inr (.inr (enabled_of_running D (endless_inv D E m) this)))
    have hp := still_phase E m hm hs; rw [h] at hp
    refine ⟨m + 1, r, by omega, ?_⟩
    generalize st (m + 1) = s' at hx
    rcases exec_ok_cases hx with ⟨j, rfl, h1, _⟩ | ⟨j, w, rfl, h1, _⟩ | ⟨j, rfl, h1, _⟩ | ⟨j, rfl, h1, _⟩ | ⟨j, rfl, h1, _⟩ |
      ⟨j, rfl, h1, _⟩ | ⟨j, w, n, rfl, h1, _⟩ | ⟨j, r', rfl, h1, _, _, rfl⟩ | ⟨j, r', rfl, h1, _, _, rfl⟩ <;>
      (simp only [WaitEv.who] at hw; subst hw; rw [hp] at h1; cases h1; try exact setW_same _ _ _)
  | act w k ih =>
    intro n h
    obtain ⟨m, e, hm, hs, he, hw, hx⟩ := first_move E F (i := i) (n := n) (fun m hm hs => by
      have := still_phase E m hm hs; rw [h] at this
      exact .inr (.inr (enabled_of_running D (endless_inv D E m) this)))
    have hp := still_phase E m hm hs; rw [h] at hp
    have h2 : (st (m + 1)).phase i = .running (k (st m).mem) := by
      generalize st (m + 1) = s' at hx
      rcases exec_ok_cases hx with ⟨j, rfl, h1, _⟩ | ⟨j, w, rfl, h1, _⟩ | ⟨j, rfl, h1, _⟩ | ⟨j, rfl, h1, _⟩ | ⟨j, rfl, h1, _⟩ |
        ⟨j, rfl, h1, _⟩ | ⟨j, w, n, rfl, h1, rfl⟩ | ⟨j, r', rfl, h1, _, _, rfl⟩ | ⟨j, r', rfl, h1, _, _, rfl⟩ <;>
        (simp only [WaitEv.who] at hw; subst hw; rw [hp] at h1; cases h1; try exact setW_same _ _ _)
    obtain ⟨m', r, hm', hr⟩ := ih _ (m + 1) h2
    exact ⟨m', r, by omega, hr⟩

/-- a reader that has been let in notices -/
theorem admitted_done (D : Disciplined T) (E : Endless T m0 st ev) (F : RunsAll T st ev) {i n : Nat} (hi : i ∈ (st n).inside) :
    ∃ m r, n ≤ m ∧ (st m).phase i = .done r := by
  rcases ((endless_inv D E n).insideOut i hi).2 with h | ⟨p, h⟩
  · have hin : ∀ m, n ≤ m → Still ev i n m → i ∈ (st m).inside := still_keeps E (P := fun s => i ∈ s.inside) D (by
      intro s s' e inv hP hx hw
      rcases exec_ok_cases hx with ⟨j, rfl, _, _, _, rfl⟩ | ⟨j, w, rfl, _, _, _, rfl⟩ | ⟨j, rfl, _, _, rfl⟩ |
        ⟨j, rfl, _, _, rfl⟩ | ⟨j, rfl, _, _, rfl⟩ | ⟨j, rfl, _, _, rfl⟩ | ⟨j, w, n, rfl, _, rfl⟩ | ⟨j, r, rfl, _, _, _, rfl⟩ |
        ⟨j, r, rfl, _, _, _, rfl⟩ <;> simp only [WaitEv.who] at hw <;> grind) hi
    obtain ⟨m, e, hm, hs, he, hw, hx⟩ := first_move E F (i := i) (n := n) (fun m hm hs => by
      have h1 := still_phase E m hm hs; rw [h] at h1
      exact .inr (.inl ⟨_, by simp only [WSys.exec, h1, if_pos (hin m hm hs)]; rfl⟩))
    have hp := still_phase E m hm hs; rw [h] at hp
    have h2 : (st (m + 1)).phase i = .running (T i).body := by
      generalize st (m + 1) = s' at hx
      rcases exec_ok_cases hx with ⟨j, rfl, h1, _⟩ | ⟨j, w, rfl, h1, _⟩ | ⟨j, rfl, h1, _⟩ | ⟨j, rfl, h1, _⟩ | ⟨j, rfl, h1, _⟩ |
        ⟨j, rfl, h1, _, rfl⟩ | ⟨j, w, n, rfl, h1, rfl⟩ | ⟨j, r', rfl, h1, _, _, rfl⟩ | ⟨j, r', rfl, h1, _, _, rfl⟩ <;>
        (simp only [WaitEv.who] at hw; subst hw; rw [hp] at h1; cases h1; try exact setW_same _ _ _)
    obtain ⟨m', r, hm', hr⟩ := running_done D E F _ (m + 1) h2
    exact ⟨m', r, by omega, hr⟩
  · exact running_done D E F p n h

/-- while a writer waits, readers can only leave -/
theorem pending_sublist {s s' : WSys σ ρ} {e : WaitEv} {i : Nat} (inv : WInv T s) (hp : s.phase i = .pending) (hx : s.exec T e = .ok s')
    (hw : WaitEv.who e ≠ i) : s'.inside.Sublist s.inside := by
  have hwr := inv.pending i hp
  rcases exec_ok_cases hx with ⟨j, rfl, _, _, h, rfl⟩ | ⟨j, w, rfl, _, _, _, rfl⟩ | ⟨j, rfl, _, _, rfl⟩ |
    ⟨j, rfl, _, h, rfl⟩ | ⟨j, rfl, _, _, rfl⟩ | ⟨j, rfl, _, _, rfl⟩ | ⟨j, w, n, rfl, _, rfl⟩ | ⟨j, r, rfl, _, _, _, rfl⟩ |
    ⟨j, r, rfl, _, _, h, rfl⟩
  · rw [hwr] at h; cases h
  · exact List.Sublist.refl _
  · exact List.Sublist.refl _
  · rw [hwr] at h; cases h
  · exact List.Sublist.refl _
  · exact List.Sublist.refl _
  · exact List.Sublist.refl _
  · exact List.erase_sublist
  · rw [hwr] at h; cases h; exact absurd rfl hw

/-- a writer that waits for the readers to leave gets in and comes to its end -/
theorem pending_done (D : Disciplined T) (E : Endless T m0 st ev) (F : RunsAll T st ev) {i : Nat} : ∀ (l n : Nat),
    (st n).inside.length ≤ l → (st n).phase i = .pending → ∃ m r, n ≤ m ∧ (st m).phase i = .done r := by
  intro l
  -- the first move of a waiting writer is to enter
  have enters : ∀ n m e, n ≤ m → (st n).phase i = .pending → Still ev i n m → WaitEv.who e = i → (st m).exec T e = .ok (st (m + 1)) →
      ∃ m r, n ≤ m ∧ (st m).phase i = .done r := by
    intro n m e hm h hs hw hx
    have hp := still_phase E m hm hs; rw [h] at hp
    have h2 : (st (m + 1)).phase i = .running (T i).body := by
      generalize st (m + 1) = s' at hx
      rcases exec_ok_cases hx with ⟨j, rfl, h1, _⟩ | ⟨j, w, rfl, h1, _⟩ | ⟨j, rfl, h1, _⟩ | ⟨j, rfl, h1, _⟩ | ⟨j, rfl, h1, _, rfl⟩ |
        ⟨j, rfl, h1, _, rfl⟩ | ⟨j, w, n, rfl, h1, rfl⟩ | ⟨j, r', rfl, h1, _, _, rfl⟩ | ⟨j, r', rfl, h1, _, _, rfl⟩ <;>
        (simp only [WaitEv.who] at hw; subst hw; rw [hp] at h1; cases h1; try exact setW_same _ _ _)
    obtain ⟨m', r, hm', hr⟩ := running_done D E F _ (m + 1) h2
    exact ⟨m', r, by omega, hr⟩
  induction l with
  | zero =>
    intro n hl h
    have h0 : (st n).inside = [] := List.length_eq_zero_iff.mp (by omega)
    have hk : ∀ m, n ≤ m → Still ev i n m → (st m).inside = [] ∧ (st m).phase i = .pending :=
      still_keeps E (P := fun s => s.inside = [] ∧ s.phase i = .pending) D (by
        intro s s' e inv hP hx hw
        have h1 := pending_sublist inv hP.2 hx hw
        rw [hP.1] at h1
        exact ⟨List.sublist_nil.mp h1, by rw [exec_other hx hw]; exact hP.2⟩) ⟨h0, h⟩
    obtain ⟨m, e, hm, hs, he, hw, hx⟩ := first_move E F (i := i) (n := n) (fun m hm hs => by
      obtain ⟨h1, h2⟩ := hk m hm hs
      exact .inl ⟨_, by simp only [WSys.exec, h2, if_pos h1]; rfl⟩)
    exact enters n m e hm h hs hw hx
  | succ l ih =>
    intro n hl h
    cases hin : (st n).inside with
    | nil => exact ih n (by simp [hin]) h
    | cons j js =>
      obtain ⟨m, r, hm, hr⟩ := admitted_done D E F (i := j) (n := n) (by rw [hin]; exact List.mem_cons_self)
      by_cases hs : Still ev i n m
      · have hk : (st m).inside.Sublist (j :: js) ∧ (st m).phase i = .pending :=
          still_keeps E (P := fun s => s.inside.Sublist (j :: js) ∧ s.phase i = .pending) D (by
            intro s s' e inv hP hx hw
            exact ⟨(pending_sublist inv hP.2 hx hw).trans hP.1, by rw [exec_other hx hw]; exact hP.2⟩)
            ⟨by rw [hin]; exact List.Sublist.refl _, h⟩ m hm hs
        have hj : j ∉ (st m).inside := by
          intro hj
          rcases ((endless_inv D E m).insideOut j hj).2 with h | ⟨p, h⟩ <;> rw [hr] at h <;> cases h
        have hlen : (st m).inside.length ≤ l := by
          have h1 : (st m).inside.length ≤ (j :: js).length := hk.1.length_le
          rcases Nat.lt_or_ge (st m).inside.length (j :: js).length with h2 | h2
          · rw [hin] at hl; omega
          · have := hk.1.eq_of_length_le h2
            rw [this] at hj; exact absurd List.mem_cons_self hj
        obtain ⟨m', r', hm', hr'⟩ := ih m hlen hk.2
        exact ⟨m', r', by omega, hr'⟩
      · -- it has moved already
        have hmv : ∃ d, n + d < m ∧ ∃ e, ev (n + d) = some e ∧ WaitEv.who e = i := by
          apply Classical.byContradiction
          intro hno
          apply hs
          intro k h1 h2 e he hw
          exact hno ⟨k - n, by omega, e, by rw [show n + (k - n) = k by omega]; exact he, hw⟩
        obtain ⟨d, hd, hmin⟩ : ∃ d, (∃ e, ev (n + d) = some e ∧ WaitEv.who e = i) ∧
            ∀ d', d' < d → ¬ ∃ e, ev (n + d') = some e ∧ WaitEv.who e = i := by
          obtain ⟨d0, h0⟩ : ∃ d, ∃ e, ev (n + d) = some e ∧ WaitEv.who e = i := by obtain ⟨d0, _, h0⟩ := hmv; exact ⟨d0, h0⟩
          clear hs hm hr ih hin hl hmv
          induction d0 using Nat.strongRecOn with
          | ind d ihd =>
            by_cases hh : ∃ d', d' < d ∧ ∃ e, ev (n + d') = some e ∧ WaitEv.who e = i
            · obtain ⟨d', hlt, h'⟩ := hh; exact ihd d' hlt h'
            · exact ⟨d, h0, fun d' hlt h' => hh ⟨d', hlt, h'⟩⟩
        obtain ⟨e, he, hw⟩ := hd
        have hx := E.next (n + d); rw [he] at hx
        refine enters n (n + d) e (by omega) h ?_ hw hx
        intro k h1 h2 e' he' hw'
        exact hmin (k - n) (by omega) ⟨e', by rw [show n + (k - n) = k by omega]; exact he', hw'⟩

/-- the writer that is waited for comes to its end -/
theorem writer_done (D : Disciplined T) (E : Endless T m0 st ev) (F : RunsAll T st ev) {i n : Nat} (h : (st n).writer = some i) :
    ∃ m r, n ≤ m ∧ (st m).phase i = .done r := by
  rcases ((endless_inv D E n).writer i h).2 with h | ⟨p, h⟩
  · exact pending_done D E F _ n (Nat.le_refl _) h
  · exact running_done D E F p n h

/-- as long as there is a writer, it is the same one -/
theorem writer_stays (E : Endless T m0 st ev) {w n : Nat} (h : (st n).writer = some w) : ∀ m, n ≤ m →
    (st m).writer = some w ∨ ∃ k, n < k ∧ k ≤ m ∧ (st k).writer = none := by
  intro m
  induction m with
  | zero => intro hm; have : n = 0 := by omega
            subst this; exact .inl h
  | succ m ih =>
    intro hm
    rcases Nat.lt_or_ge n (m + 1) with h' | h'
    · rcases ih (by omega) with h1 | ⟨k, h1, h2, h3⟩
      · have := E.next m
        cases he : ev m with
        | none => rw [he] at this; simp only at this; rw [this]; exact .inl h1
        | some e =>
          rw [he] at this; simp only at this
          have hh : (st (m + 1)).writer = some w ∨ (st (m + 1)).writer = none := by
            generalize st (m + 1) = s' at this
            rcases exec_ok_cases this with ⟨j, rfl, _, _, _, rfl⟩ | ⟨j, w, rfl, _, _, _, rfl⟩ | ⟨j, rfl, _, _, rfl⟩ |
              ⟨j, rfl, _, hw, rfl⟩ | ⟨j, rfl, _, _, rfl⟩ | ⟨j, rfl, _, _, rfl⟩ | ⟨j, w, n, rfl, _, rfl⟩ | ⟨j, r, rfl, _, _, _, rfl⟩ |
              ⟨j, r, rfl, _, _, _, rfl⟩
            all_goals first
              | exact .inl h1
              | exact .inr rfl
              | (rw [h1] at hw; cases hw)
          rcases hh with hh | hh
          · exact .inl hh
          · exact .inr ⟨m + 1, by omega, Nat.le_refl _, hh⟩
      · exact .inr ⟨k, h1, by omega, h3⟩
    · have : n = m + 1 := by omega
      subst this; exact .inl h

/-- again and again there is no writer -/
theorem writer_none (D : Disciplined T) (E : Endless T m0 st ev) (F : RunsAll T st ev) (n : Nat) : ∃ m, n ≤ m ∧ (st m).writer = none := by
  cases h : (st n).writer with
  | none => exact ⟨n, Nat.le_refl _, h⟩
  | some w =>
    obtain ⟨m, r, hm, hr⟩ := writer_done D E F h
    rcases writer_stays E h m hm with h1 | ⟨k, h1, _, h3⟩
    · rcases ((endless_inv D E m).writer w h1).2 with h | ⟨p, h⟩ <;> rw [hr] at h <;> cases h
    · exact ⟨k, by omega, h3⟩

/-- a reader that waits for the writer comes to its end -/
theorem parked_done (D : Disciplined T) (E : Endless T m0 st ev) (F : RunsAll T st ev) {i n : Nat} (h : (st n).phase i = .parked) :
    ∃ m r, n ≤ m ∧ (st m).phase i = .done r := by
  rcases (endless_inv D E n).parkedIn i h with hi | hi
  · exact admitted_done D E F hi
  · have key : ∀ m, n ≤ m → (∃ k, n ≤ k ∧ i ∈ (st k).inside) ∨ i ∈ (st m).parked := by
      intro m
      induction m with
      | zero => intro hm; have : n = 0 := by omega
                subst this; exact .inr hi
      | succ m ih =>
        intro hm
        rcases Nat.lt_or_ge n (m + 1) with h' | h'
        · rcases ih (by omega) with h1 | h1
          · exact .inl h1
          · have := E.next m
            cases he : ev m with
            | none => rw [he] at this; simp only at this; rw [this]; exact .inr h1
            | some e =>
              rw [he] at this; simp only at this
              have hh : i ∈ (st (m + 1)).inside ∨ i ∈ (st (m + 1)).parked := by
                generalize st (m + 1) = s' at this
                rcases exec_ok_cases this with ⟨j, rfl, _, _, _, rfl⟩ | ⟨j, w, rfl, _, _, _, rfl⟩ | ⟨j, rfl, _, _, rfl⟩ |
                  ⟨j, rfl, _, hw, rfl⟩ | ⟨j, rfl, _, _, rfl⟩ | ⟨j, rfl, _, _, rfl⟩ | ⟨j, w, n, rfl, _, rfl⟩ | ⟨j, r, rfl, _, _, _, rfl⟩ |
                  ⟨j, r, rfl, _, _, _, rfl⟩
                all_goals first
                  | exact .inr h1
                  | exact .inr (List.mem_cons_of_mem _ h1)
                  | exact .inl (List.mem_append_left _ h1)
              rcases hh with hh | hh
              · exact .inl ⟨m + 1, by omega, hh⟩
              · exact .inr hh
        · have : n = m + 1 := by omega
          subst this; exact .inr hi
    obtain ⟨m, hm, hn⟩ := writer_none D E F n
    rcases key m hm with ⟨k, hk, h1⟩ | h1
    · obtain ⟨m', r, hm', hr⟩ := admitted_done D E F h1
      exact ⟨m', r, by omega, hr⟩
    · obtain ⟨_, _, w, hw⟩ := (endless_inv D E m).parkedOut i h1
      rw [hn] at hw; cases hw

/-- a writer that waits for other writers comes to its end -/
theorem queued_done (D : Disciplined T) (E : Endless T m0 st ev) (F : RunsAll T st ev) (W : WritersTakeTurns T st ev) {i n : Nat}
    (h : (st n).phase i = .queued) : ∃ m r, n ≤ m ∧ (st m).phase i = .done r := by
  have hc : ∃ m, n ≤ m ∧ ev m = some (.claim i) := by
    apply Classical.byContradiction
    intro hno
    have hq : ∀ m, n ≤ m → (st m).phase i = .queued := by
      intro m
      induction m with
      | zero => intro hm; have : n = 0 := by omega
                subst this; exact h
      | succ m ih =>
        intro hm
        rcases Nat.lt_or_ge n (m + 1) with h' | h'
        · have h1 := ih (by omega)
          have := E.next m
          cases he : ev m with
          | none => rw [he] at this; simp only at this; rw [this]; exact h1
          | some e =>
            rw [he] at this; simp only at this
            by_cases hw : WaitEv.who e = i
            · exfalso
              generalize st (m + 1) = s' at this
              rcases exec_ok_cases this with ⟨j, rfl, h2, _⟩ | ⟨j, w, rfl, h2, _⟩ | ⟨j, rfl, h2, _⟩ | ⟨j, rfl, h2, _⟩ | ⟨j, rfl, h2, _⟩ |
                ⟨j, rfl, h2, _⟩ | ⟨j, w, n, rfl, h2, _⟩ | ⟨j, r', rfl, h2, _⟩ | ⟨j, r', rfl, h2, _⟩ <;>
                (simp only [WaitEv.who] at hw; subst hw)
              all_goals first
                | (rw [h1] at h2; cases h2; done)
                | exact hno ⟨m, by omega, he⟩
            · rw [exec_other this hw]; exact h1
        · have : n = m + 1 := by omega
          subst this; exact h
    apply hno
    refine W i n fun k => ?_
    obtain ⟨m, hm, hn⟩ := writer_none D E F (max k n)
    exact ⟨m, by omega, { st m with writer := some i, phase := setWPhase (st m).phase i .pending }, by
      simp only [WSys.exec, hq m (by omega), hn]⟩
  obtain ⟨m, hm, he⟩ := hc
  have hx := E.next m
  rw [he] at hx; simp only at hx
  have h2 : (st (m + 1)).phase i = .pending := by
    generalize st (m + 1) = s' at hx
    rcases exec_ok_cases hx with ⟨j, e, _⟩ | ⟨j, w, e, _⟩ | ⟨j, e, _⟩ | ⟨j, e, h2, _, rfl⟩ | ⟨j, e, _⟩ |
      ⟨j, e, _⟩ | ⟨j, w, n, e, _⟩ | ⟨j, r', e, _⟩ | ⟨j, r', e, _⟩ <;> cases e
    exact setW_same _ _ _
  obtain ⟨m', r, hm', hr⟩ := pending_done D E F _ (m + 1) (Nat.le_refl _) h2
  exact ⟨m', r, by omega, hr⟩

/-- whoever asks for the lock comes to its end -/
theorem asked_done (D : Disciplined T) (E : Endless T m0 st ev) (F : RunsAll T st ev) (W : WritersTakeTurns T st ev) {i n : Nat}
    (h : (st n).phase i ≠ .away) : ∃ m r, n ≤ m ∧ (st m).phase i = .done r := by
  cases hp : (st n).phase i with
  | away => exact absurd hp h
  | queued => exact queued_done D E F W hp
  | pending => exact pending_done D E F _ n (Nat.le_refl _) hp
  | parked => exact parked_done D E F hp
  | running p => exact running_done D E F p n hp
  | done r => exact ⟨n, r, Nat.le_refl _, hp⟩

end

/-! ### Overtaking -/

/-- who has finished stays finished -/
theorem done_stays {T : Nat → Task σ ρ} {s s' : WSys σ ρ} {e : WaitEv} (h : s.exec T e = .ok s') {i : Nat} {r : ρ}
    (hd : s.phase i = .done r) : s'.phase i = .done r := by
  by_cases hw : WaitEv.who e = i
  · exfalso
    rcases exec_ok_cases h with ⟨j, rfl, h2, _⟩ | ⟨j, w, rfl, h2, _⟩ | ⟨j, rfl, h2, _⟩ | ⟨j, rfl, h2, _⟩ | ⟨j, rfl, h2, _⟩ |
      ⟨j, rfl, h2, _⟩ | ⟨j, w, n, rfl, h2, _⟩ | ⟨j, r', rfl, h2, _⟩ | ⟨j, r', rfl, h2, _⟩ <;>
      (simp only [WaitEv.who] at hw; subst hw; rw [hd] at h2; cases h2)
  · rw [exec_other h hw]; exact hd

theorem done_stays_all {T : Nat → Task σ ρ} (es : List WaitEv) : ∀ {s s' : WSys σ ρ}, s.execAll T es = .ok s' → ∀ {i : Nat} {r : ρ},
    s.phase i = .done r → s'.phase i = .done r := by
  induction es with
  | nil => intro s s' h i r hd; simp only [WSys.execAll, Outcome.ok.injEq] at h; subst h; exact hd
  | cons e es ih =>
    intro s s' h i r hd
    simp only [WSys.execAll] at h
    split at h <;> try cases h
    rename_i s1 h1
    exact ih h (done_stays h1 hd)

/-- while reader `i` has not given back the lock, at most `k` writers can still enter -/
def Behind (k i : Nat) (s : WSys σ ρ) : Prop :=
  i ∈ s.inside ∨ (i ∈ s.parked ∧ ∃ w, s.writer = some w ∧ ((∃ p, s.phase w = .running p) ∨ (s.phase w = .pending ∧ 1 ≤ k)))

theorem behind_exec {T : Nat → Task σ ρ} {s s' : WSys σ ρ} {e : WaitEv} (inv : WInv T s) {k i : Nat} (hb : Behind k i s)
    (h : s.exec T e = .ok s') (hd : ∀ r, s'.phase i ≠ .done r) :
    (∀ j, e ≠ .enter j) ∧ Behind k i s' ∨ (∃ j, e = .enter j) ∧ 1 ≤ k ∧ Behind (k - 1) i s' := by
  obtain ⟨h1, h2, h3, h4, h5, h6, h7, h8, h9, h10, h11⟩ := inv
  rcases exec_ok_cases h with ⟨j, rfl, hp, ha, hw, rfl⟩ | ⟨j, w, rfl, hp, ha, hw, rfl⟩ | ⟨j, rfl, hp, ha, rfl⟩ |
    ⟨j, rfl, hp, hw, rfl⟩ | ⟨j, rfl, hp, hw, rfl⟩ | ⟨j, rfl, hp, hw, rfl⟩ | ⟨j, w, n, rfl, hp, rfl⟩ | ⟨j, r, rfl, hp, ha, hi, rfl⟩ |
    ⟨j, r, rfl, hp, ha, hi, rfl⟩ <;> simp only [Behind] at hb ⊢ <;> grind [setWPhase]

/-- how often a writer enters -/
def entries (es : List WaitEv) : Nat := es.countP fun e => match e with | .enter _ => true | _ => false

theorem behind_execAll {T : Nat → Task σ ρ} (D : Disciplined T) {i : Nat} (es : List WaitEv) : ∀ {k : Nat} {s s' : WSys σ ρ}, WInv T s → Behind k i s →
    s.execAll T es = .ok s' → (∀ r, s'.phase i ≠ .done r) → entries es ≤ k := by
  induction es with
  | nil => intro k s s' _ _ _ _; simp [entries]
  | cons e es ih =>
    intro k s s' inv hb h hd
    simp only [WSys.execAll] at h
    split at h <;> try cases h
    rename_i s1 h1
    rcases behind_exec inv hb h1 (fun r hr => hd r (done_stays_all es h hr)) with ⟨he, hb'⟩ | ⟨⟨j, he⟩, hk, hb'⟩
    · have := ih (winv_exec D inv h1) hb' h hd
      have hz : entries (e :: es) = entries es := by
        cases e <;> simp_all [entries]
      rw [hz]; exact this
    · have := ih (winv_exec D inv h1) hb' h hd
      subst he
      simp only [entries, List.countP_cons] at this ⊢
      simp only [if_true]
      omega

/-- `j` has not been let in -/
def Outside (j : Nat) (s : WSys σ ρ) : Prop :=
  j ∉ s.inside ∧ (s.phase j = .away ∨ s.phase j = .queued ∨ s.phase j = .parked)

theorem outside_exec {T : Nat → Task σ ρ} {s s' : WSys σ ρ} {e : WaitEv} (inv : WInv T s) {i j : Nat} (hp : s.phase i = .pending)
    (hp' : s'.phase i = .pending) (ho : Outside j s) (h : s.exec T e = .ok s') : Outside j s' := by
  obtain ⟨h1, h2, h3, h4, h5, h6, h7, h8, h9, h10, h11⟩ := inv
  rcases exec_ok_cases h with ⟨l, rfl, hp, ha, hw, rfl⟩ | ⟨l, w, rfl, hp, ha, hw, rfl⟩ | ⟨l, rfl, hp, ha, rfl⟩ |
    ⟨l, rfl, hp, hw, rfl⟩ | ⟨l, rfl, hp, hw, rfl⟩ | ⟨l, rfl, hp, hw, rfl⟩ | ⟨l, w, n, rfl, hp, rfl⟩ | ⟨l, r, rfl, hp, ha, hi, rfl⟩ |
    ⟨l, r, rfl, hp, ha, hi, rfl⟩ <;> simp only [Outside] at ho ⊢ <;> grind [setWPhase]

/-- a waiting writer that waits at the end has waited all the time -/
theorem pending_back {T : Nat → Task σ ρ} {s s' : WSys σ ρ} {e : WaitEv} {i : Nat} (h : s.exec T e = .ok s')
    (hs : s.phase i = .pending) (hp : s'.phase i ≠ .pending) : ∃ p, s'.phase i = .running p := by
  rcases exec_ok_cases h with ⟨l, rfl, hp, ha, hw, rfl⟩ | ⟨l, w, rfl, hp, ha, hw, rfl⟩ | ⟨l, rfl, hp, ha, rfl⟩ |
    ⟨l, rfl, hp, hw, rfl⟩ | ⟨l, rfl, hp, hw, rfl⟩ | ⟨l, rfl, hp, hw, rfl⟩ | ⟨l, w, n, rfl, hp, rfl⟩ | ⟨l, r, rfl, hp, ha, hi, rfl⟩ |
    ⟨l, r, rfl, hp, ha, hi, rfl⟩ <;> grind [setWPhase]

/-- who is inside or has finished does not wait any more -/
theorem past_waiting {T : Nat → Task σ ρ} {s s' : WSys σ ρ} {e : WaitEv} {i : Nat} (h : s.exec T e = .ok s')
    (hs : (∃ p, s.phase i = .running p) ∨ ∃ r, s.phase i = .done r) : (∃ p, s'.phase i = .running p) ∨ ∃ r, s'.phase i = .done r := by
  rcases exec_ok_cases h with ⟨l, rfl, hp, ha, hw, rfl⟩ | ⟨l, w, rfl, hp, ha, hw, rfl⟩ | ⟨l, rfl, hp, ha, rfl⟩ |
    ⟨l, rfl, hp, hw, rfl⟩ | ⟨l, rfl, hp, hw, rfl⟩ | ⟨l, rfl, hp, hw, rfl⟩ | ⟨l, w, n, rfl, hp, rfl⟩ | ⟨l, r, rfl, hp, ha, hi, rfl⟩ |
    ⟨l, r, rfl, hp, ha, hi, rfl⟩ <;> grind [setWPhase]

theorem past_waiting_all {T : Nat → Task σ ρ} {i : Nat} (es : List WaitEv) : ∀ {s s' : WSys σ ρ}, s.execAll T es = .ok s' →
    ((∃ p, s.phase i = .running p) ∨ ∃ r, s.phase i = .done r) → (∃ p, s'.phase i = .running p) ∨ ∃ r, s'.phase i = .done r := by
  induction es with
  | nil => intro s s' h hd; simp only [WSys.execAll, Outcome.ok.injEq] at h; subst h; exact hd
  | cons e es ih =>
    intro s s' h hd
    simp only [WSys.execAll] at h
    split at h <;> try cases h
    rename_i s1 h1
    exact ih h (past_waiting h1 hd)

theorem outside_execAll {T : Nat → Task σ ρ} (D : Disciplined T) {i j : Nat} (es : List WaitEv) : ∀ {s s' : WSys σ ρ}, WInv T s → s.phase i = .pending →
    s'.phase i = .pending → Outside j s → s.execAll T es = .ok s' → Outside j s' := by
  induction es with
  | nil => intro s s' _ _ _ ho h; simp only [WSys.execAll, Outcome.ok.injEq] at h; subst h; exact ho
  | cons e es ih =>
    intro s s' inv hp hp' ho h
    simp only [WSys.execAll] at h
    split at h <;> try cases h
    rename_i s1 h1
    by_cases hq : s1.phase i = .pending
    · exact ih (winv_exec D inv h1) hq hp' (outside_exec inv hp hq ho h1) h
    · have := past_waiting_all es h (.inl (pending_back h1 hp hq))
      rw [hp'] at this
      rcases this with ⟨_, h⟩ | ⟨_, h⟩ <;> cases h

/-! ### Fair executions exist -/

/-- a schedule, then silence -/
def thenSilent (es : List WaitEv) (n : Nat) : Option WaitEv := es[n]?

/-- the states of such an execution -/
def statesOf (T : Nat → Task σ ρ) (s : WSys σ ρ) : List WaitEv → Nat → WSys σ ρ
  | [], _ => s
  | _ :: _, 0 => s
  | e :: es, n + 1 => match s.exec T e with
    | .ok s' => statesOf T s' es n
    | _ => s

theorem statesOf_zero (T : Nat → Task σ ρ) (s : WSys σ ρ) (es : List WaitEv) : statesOf T s es 0 = s := by cases es <;> rfl

theorem statesOf_next (T : Nat → Task σ ρ) (es : List WaitEv) : ∀ (s s' : WSys σ ρ), s.execAll T es = .ok s' → ∀ n,
    (match thenSilent es n with
    | none => statesOf T s es (n + 1) = statesOf T s es n
    | some e => (statesOf T s es n).exec T e = .ok (statesOf T s es (n + 1))) ∧ (es.length ≤ n → statesOf T s es n = s') := by
  induction es with
  | nil => intro s s' h n; simp only [WSys.execAll, Outcome.ok.injEq] at h; subst h; exact ⟨by simp [thenSilent, statesOf], fun _ => rfl⟩
  | cons e es ih =>
    intro s s' h n
    simp only [WSys.execAll] at h
    split at h <;> try cases h
    rename_i s1 h1
    cases n with
    | zero =>
      refine ⟨?_, fun h => absurd h (by simp)⟩
      simp only [thenSilent, List.getElem?_cons_zero]
      rw [statesOf_zero]
      simp only [statesOf, h1, statesOf_zero]
    | succ n =>
      have := ih s1 s' h n
      simp only [thenSilent, List.getElem?_cons_succ, statesOf, h1, List.length_cons, Nat.add_le_add_iff_right] at this ⊢
      exact this

theorem silent_fair (T : Nat → Task σ ρ) (m0 : σ) (es : List WaitEv) (s' : WSys σ ρ) (h : (WSys.initial m0).execAll T es = .ok s')
    (hend : ∀ i, s'.phase i = .away ∨ ∃ r, s'.phase i = .done r) :
    Endless T m0 (statesOf T (WSys.initial m0) es) (thenSilent es) ∧ RunsAll T (statesOf T (WSys.initial m0) es) (thenSilent es) ∧
    WritersTakeTurns T (statesOf T (WSys.initial m0) es) (thenSilent es) := by
  have hn := statesOf_next T es _ s' h
  have hoff : ∀ e, (∀ i, e ≠ .call i) → ¬ Enabled T s' e := by
    intro e hc ⟨s2, h2⟩
    rcases exec_ok_cases h2 with ⟨j, rfl, h1, _⟩ | ⟨j, w, rfl, h1, _⟩ | ⟨j, rfl, h1, _⟩ | ⟨j, rfl, h1, _⟩ | ⟨j, rfl, h1, _⟩ |
      ⟨j, rfl, h1, _⟩ | ⟨j, w, n, rfl, h1, _⟩ | ⟨j, r', rfl, h1, _⟩ | ⟨j, r', rfl, h1, _⟩
    · exact hc j rfl
    · exact hc j rfl
    · exact hc j rfl
    all_goals rcases hend j with g | ⟨r, g⟩ <;> rw [h1] at g <;> cases g
  refine ⟨⟨statesOf_zero _ _ _, fun n => (hn n).1⟩, ?_, ?_⟩
  · intro i n
    refine ⟨max n es.length, by omega, .inr ?_⟩
    rw [(hn (max n es.length)).2 (by omega)]
    exact ⟨hoff _ (by simp), hoff _ (by simp), hoff _ (by simp), hoff _ (by simp)⟩
  · intro i n hinf
    obtain ⟨m, hm, he⟩ := hinf es.length
    rw [(hn m).2 hm] at he
    exact absurd he (hoff _ (by simp))

/-- as long as somebody who has asked is not through, somebody who has asked can move -/
theorem waiting_progress {T : Nat → Task σ ρ} (D : Disciplined T) {s : WSys σ ρ} (inv : WInv T s) {i : Nat} (h1 : s.phase i ≠ .away)
    (h2 : ∀ r, s.phase i ≠ .done r) : ∃ e s', (∀ j, e ≠ .call j) ∧ s.exec T e = .ok s' := by
  have run : ∀ j p, s.phase j = .running p → ∃ e s', (∀ j, e ≠ .call j) ∧ s.exec T e = .ok s' := by
    intro j p h
    rcases enabled_of_running D inv h with ⟨s', h⟩ | ⟨s', h⟩
    · exact ⟨_, s', by simp, h⟩
    · exact ⟨_, s', by simp, h⟩
  have ins : ∀ j, j ∈ s.inside → ∃ e s', (∀ j, e ≠ .call j) ∧ s.exec T e = .ok s' := by
    intro j hj
    rcases (inv.insideOut j hj).2 with h | ⟨p, h⟩
    · exact ⟨.wake j, { s with phase := setWPhase s.phase j (.running (T j).body) }, by simp, by simp only [WSys.exec, h, if_pos hj]⟩
    · exact run j p h
  have wr : ∀ w, s.writer = some w → ∃ e s', (∀ j, e ≠ .call j) ∧ s.exec T e = .ok s' := by
    intro w hw
    rcases (inv.writer w hw).2 with h | ⟨p, h⟩
    · cases hin : s.inside with
      | nil => exact ⟨.enter w, { s with phase := setWPhase s.phase w (.running (T w).body) }, by simp, by simp only [WSys.exec, h, if_pos hin]⟩
      | cons j js => exact ins j (by rw [hin]; exact List.mem_cons_self)
    · exact run w p h
  cases hp : s.phase i with
  | away => exact absurd hp h1
  | queued =>
    cases hw : s.writer with
    | none => exact ⟨.claim i, { s with writer := some i, phase := setWPhase s.phase i .pending }, by simp, by simp only [WSys.exec, hp, hw]⟩
    | some w => exact wr w hw
  | pending => exact wr i (inv.pending i hp)
  | parked =>
    rcases inv.parkedIn i hp with h | h
    · exact ins i h
    · obtain ⟨_, _, w, hw⟩ := inv.parkedOut i h
      exact wr w hw
  | running p => exact run i p hp
  | done r => exact absurd hp (h2 r)

theorem still_done {T : Nat → Task σ ρ} {m0 : σ} {st : Nat → WSys σ ρ} {ev : Nat → Option WaitEv} (E : Endless T m0 st ev) {i n : Nat} {r : ρ}
    (h : (st n).phase i = .done r) : ∀ m, n ≤ m → (st m).phase i = .done r := by
  intro m
  induction m with
  | zero => intro hm; have : n = 0 := by omega
            subst this; exact h
  | succ m ih =>
    intro hm
    rcases Nat.lt_or_ge n (m + 1) with h' | h'
    · have h1 := ih (by omega)
      have := E.next m
      cases he : ev m with
      | none => rw [he] at this; simp only at this; rw [this]; exact h1
      | some e => rw [he] at this; exact done_stays this h1
    · have : n = m + 1 := by omega
      subst this; exact h

end Coniks
