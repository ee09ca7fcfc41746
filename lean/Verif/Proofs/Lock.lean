import Verif.Spec.Linear
/-
Linearizability of critical sections under a read-write lock.
-/
namespace Coniks
open Spec

variable {σ ρ : Type}

theorem ReadOnly.run_mem {p : Prog σ ρ} (h : p.ReadOnly) (s : σ) : (p.run s).1 = s := by
  induction p with
  | ret r => rfl
  | act w n ih => simp only [Prog.run]; rw [h.1 s]; exact ih s (h.2 s)

theorem seqRun_append (T : Nat → Task σ ρ) (a b : List Nat) : ∀ m : σ,
    seqRun T m (a ++ b) = ((seqRun T (seqRun T m a).1 b).1, (seqRun T m a).2 ++ (seqRun T (seqRun T m a).1 b).2) := by
  induction a with
  | nil => intro m; rfl
  | cons i a ih => intro m; simp only [List.cons_append, seqRun, ih]

theorem seqRun_length (T : Nat → Task σ ρ) (a : List Nat) : ∀ m : σ, (seqRun T m a).2.length = a.length := by
  induction a with
  | nil => intro m; rfl
  | cons i a ih => intro m; simp only [seqRun, List.length_cons, ih]

/-- What a lock discipline must satisfy. -/
structure Disciplined (T : Nat → Task σ ρ) : Prop where
  same : ∀ i, (T i).release = (T i).acquire
  ro : ∀ i, (T i).acquire = .read → (T i).body.ReadOnly

def readersIn (T : Nat → Task σ ρ) (act : List Nat) : List Nat := act.filter fun i => (T i).acquire = .read

/-- `order`: the finished goroutines; `act`: the running ones. -/
structure LockInv (T : Nat → Task σ ρ) (m0 : σ) (s : Sys σ ρ) (order act : List Nat) : Prop where
  nodup : order.Nodup
  actNodup : act.Nodup
  isDone : ∀ i, (∃ r, s.phase i = .done r) ↔ i ∈ order
  isRunning : ∀ i, (∃ p, s.phase i = .running p) ↔ i ∈ act
  results : ∀ (k i : Nat), order[k]? = some i → ∃ r, (seqRun T m0 order).2[k]? = some r ∧ s.phase i = .done r
  readers : s.lock.readers = (readersIn T act).length
  writer : s.lock.writer = true ↔ ∃ i, i ∈ act ∧ (T i).acquire = .write
  alone : ∀ i, i ∈ act → (T i).acquire = .write → act = [i]
  quiet : s.lock.writer = false → s.mem = (seqRun T m0 order).1
  reading : ∀ i p, s.phase i = .running p → (T i).acquire = .read →
    p.ReadOnly ∧ (p.run s.mem).2 = ((T i).body.run (seqRun T m0 order).1).2
  writing : ∀ i p, s.phase i = .running p → (T i).acquire = .write → p.run s.mem = (T i).body.run (seqRun T m0 order).1

theorem inv_initial (T : Nat → Task σ ρ) (m0 : σ) : LockInv T m0 (Sys.initial m0) [] [] where
  nodup := List.nodup_nil
  actNodup := List.nodup_nil
  isDone := by intro i; simp [Sys.initial]
  isRunning := by intro i; simp [Sys.initial]
  results := by intro k i h; simp at h
  readers := rfl
  writer := by simp [Sys.initial]
  alone := by intro i h; simp at h
  quiet := by intro _; rfl
  reading := by intro i p h; simp [Sys.initial] at h
  writing := by intro i p h; simp [Sys.initial] at h

theorem setPhase_same (f : Nat → Phase σ ρ) (i : Nat) (p : Phase σ ρ) : setPhase f i p i = p := by simp [setPhase]
theorem setPhase_ne (f : Nat → Phase σ ρ) (i j : Nat) (p : Phase σ ρ) (h : j ≠ i) : setPhase f i p j = f j := by simp [setPhase, h]

theorem mode_cases (m : LockMode) : m = .read ∨ m = .write := by cases m <;> simp

/-- a running goroutine with the lock free of writers reads, etc. -/
theorem running_mode {T : Nat → Task σ ρ} {m0 : σ} {s : Sys σ ρ} {order act : List Nat} (inv : LockInv T m0 s order act)
    {i : Nat} {p : Prog σ ρ} (h : s.phase i = .running p) (hw : s.lock.writer = false) : (T i).acquire = .read := by
  rcases mode_cases (T i).acquire with g | g
  · exact g
  · have := inv.writer.mpr ⟨i, (inv.isRunning i).mp ⟨p, h⟩, g⟩
    rw [hw] at this; cases this

theorem inv_lock {T : Nat → Task σ ρ} (D : Disciplined T) {m0 : σ} {s : Sys σ ρ} {order act : List Nat}
    (inv : LockInv T m0 s order act) {i : Nat} (hi : s.phase i = .idle) {l : RWLock} (hl : s.lock.take (T i).acquire = .ok l) :
    LockInv T m0 { s with lock := l, phase := setPhase s.phase i (.running (T i).body) } order (i :: act) := by
  have hna : i ∉ act := fun h => by obtain ⟨p, hp⟩ := (inv.isRunning i).mpr h; rw [hi] at hp; cases hp
  have hno : i ∉ order := fun h => by obtain ⟨p, hp⟩ := (inv.isDone i).mpr h; rw [hi] at hp; cases hp
  have hw : s.lock.writer = false := by
    revert hl; cases (T i).acquire <;> simp only [RWLock.take] <;> cases s.lock.writer <;> simp
  have hm := inv.quiet hw
  have hact : (T i).acquire = .write → act = [] := by
    intro g
    rw [g] at hl
    simp only [RWLock.take, hw, Bool.false_or] at hl
    split at hl
    · cases hl
    · rename_i h0
      have h0 : s.lock.readers = 0 := by simpa using h0
      rw [inv.readers] at h0
      cases act with
      | nil => rfl
      | cons j js =>
        have hj : j ∈ j :: js := List.mem_cons_self
        obtain ⟨p, hp⟩ := (inv.isRunning j).mpr hj
        have := running_mode inv hp hw
        have : j ∈ readersIn T (j :: js) := by simp [readersIn, this]
        rw [List.length_eq_zero_iff.mp h0] at this; simp at this
  refine ⟨inv.nodup, List.nodup_cons.mpr ⟨hna, inv.actNodup⟩, ?_, ?_, ?_, ?_, ?_, ?_, ?_, ?_, ?_⟩
  · intro j
    by_cases e : j = i
    · subst e; simp [setPhase_same, hno]
    · simp only [setPhase_ne _ _ _ _ e]; exact inv.isDone j
  · intro j
    by_cases e : j = i
    · subst e; simp [setPhase_same]
    · simp only [setPhase_ne _ _ _ _ e, List.mem_cons, e, false_or]; exact inv.isRunning j
  · intro k j hk
    obtain ⟨r, h1, h2⟩ := inv.results k j hk
    have e : j ≠ i := fun e => hno (e ▸ List.mem_of_getElem? hk)
    exact ⟨r, h1, by simp only [setPhase_ne _ _ _ _ e]; exact h2⟩
  · rcases mode_cases (T i).acquire with g | g
    · rw [g] at hl
      simp only [RWLock.take, hw, Bool.false_eq_true, if_false, Outcome.ok.injEq] at hl
      subst hl
      simp [readersIn, g, inv.readers]
    · have h0 := hact g
      rw [g] at hl
      simp only [RWLock.take, hw, Bool.false_or] at hl
      split at hl
      · cases hl
      · simp only [Outcome.ok.injEq] at hl; subst hl
        subst h0
        simp [readersIn, g, inv.readers]
  · rcases mode_cases (T i).acquire with g | g
    · rw [g] at hl
      simp only [RWLock.take, hw, Bool.false_eq_true, if_false, Outcome.ok.injEq] at hl
      subst hl
      simp only [List.mem_cons, exists_eq_or_imp, g, hw]
      rw [← inv.writer, hw]; simp
    · rw [g] at hl
      simp only [RWLock.take, hw, Bool.false_or] at hl
      split at hl
      · cases hl
      · simp only [Outcome.ok.injEq] at hl; subst hl
        simp [g]
  · intro j hj g
    rcases List.mem_cons.mp hj with e | e
    · subst e; rw [hact g]
    · have := inv.writer.mpr ⟨j, e, g⟩
      rw [hw] at this; cases this
  · intro _; exact hm
  · intro j p hp g
    by_cases e : j = i
    · subst e
      simp only [setPhase_same, Phase.running.injEq] at hp
      subst hp
      exact ⟨D.ro _ g, by rw [← hm]⟩
    · simp only [setPhase_ne _ _ _ _ e] at hp
      exact inv.reading j p hp g
  · intro j p hp g
    by_cases e : j = i
    · subst e
      simp only [setPhase_same, Phase.running.injEq] at hp
      subst hp
      rw [hm]
    · simp only [setPhase_ne _ _ _ _ e] at hp
      exact inv.writing j p hp g

theorem inv_step {T : Nat → Task σ ρ} {m0 : σ} {s : Sys σ ρ} {order act : List Nat}
    (inv : LockInv T m0 s order act) {i : Nat} {w : σ → σ} {n : σ → Prog σ ρ} (hi : s.phase i = .running (.act w n)) :
    LockInv T m0 { s with mem := w s.mem, phase := setPhase s.phase i (.running (n s.mem)) } order act := by
  have hna : i ∈ act := (inv.isRunning i).mp ⟨_, hi⟩
  have hno : i ∉ order := fun h => by obtain ⟨p, hp⟩ := (inv.isDone i).mpr h; rw [hi] at hp; cases hp
  have hmem : (T i).acquire = .read → w s.mem = s.mem := fun g => (inv.reading i _ hi g).1.1 s.mem
  have other : ∀ j p, j ≠ i → s.phase j = .running p → w s.mem = s.mem := by
    intro j p e hp
    rcases mode_cases (T i).acquire with g | g
    · exact hmem g
    · have := inv.alone i hna g
      have hj := (inv.isRunning j).mp ⟨p, hp⟩
      rw [this] at hj
      exact absurd (List.mem_singleton.mp hj) e
  refine ⟨inv.nodup, inv.actNodup, ?_, ?_, ?_, inv.readers, inv.writer, inv.alone, ?_, ?_, ?_⟩
  · intro j
    by_cases e : j = i
    · subst e; simp [setPhase_same, hno]
    · simp only [setPhase_ne _ _ _ _ e]; exact inv.isDone j
  · intro j
    by_cases e : j = i
    · subst e; simp [setPhase_same, hna]
    · simp only [setPhase_ne _ _ _ _ e]; exact inv.isRunning j
  · intro k j hk
    obtain ⟨r, h1, h2⟩ := inv.results k j hk
    have e : j ≠ i := fun e => hno (e ▸ List.mem_of_getElem? hk)
    exact ⟨r, h1, by simp only [setPhase_ne _ _ _ _ e]; exact h2⟩
  · intro hw
    have g := running_mode inv hi hw
    rw [hmem g]; exact inv.quiet hw
  · intro j p hp g
    by_cases e : j = i
    · subst e
      simp only [setPhase_same, Phase.running.injEq] at hp
      subst hp
      obtain ⟨h1, h2⟩ := inv.reading j _ hi g
      exact ⟨h1.2 s.mem, by simpa only [Prog.run] using h2⟩
    · simp only [setPhase_ne _ _ _ _ e] at hp
      simp only [other j p e hp]
      exact inv.reading j p hp g
  · intro j p hp g
    by_cases e : j = i
    · subst e
      simp only [setPhase_same, Phase.running.injEq] at hp
      subst hp
      exact inv.writing j _ hi g
    · simp only [setPhase_ne _ _ _ _ e] at hp
      simp only [other j p e hp]
      exact inv.writing j p hp g

theorem give_ok {T : Nat → Task σ ρ} (D : Disciplined T) {m0 : σ} {s : Sys σ ρ} {order act : List Nat}
    (inv : LockInv T m0 s order act) {i : Nat} {p : Prog σ ρ} (hi : s.phase i = .running p) :
    ((T i).acquire = .read ∧ s.lock.writer = false ∧ s.lock.readers ≠ 0 ∧
      s.lock.give (T i).release = .ok { s.lock with readers := s.lock.readers - 1 }) ∨
    ((T i).acquire = .write ∧ s.lock.writer = true ∧ act = [i] ∧
      s.lock.give (T i).release = .ok { s.lock with writer := false }) := by
  have hna : i ∈ act := (inv.isRunning i).mp ⟨_, hi⟩
  rw [D.same i]
  rcases mode_cases (T i).acquire with g | g
  · left
    have h0 : s.lock.readers ≠ 0 := by
      rw [inv.readers]
      have : i ∈ readersIn T act := by simp [readersIn, hna, g]
      intro h; rw [List.length_eq_zero_iff.mp h] at this; simp at this
    have hw : s.lock.writer = false := by
      cases h : s.lock.writer with
      | false => rfl
      | true =>
        obtain ⟨j, hj, gj⟩ := inv.writer.mp h
        have := inv.alone j hj gj
        rw [this] at hna
        rw [List.mem_singleton.mp hna, gj] at g; cases g
    exact ⟨g, hw, h0, by simp [g, RWLock.give, h0]⟩
  · right
    have hw := inv.writer.mpr ⟨i, hna, g⟩
    exact ⟨g, hw, inv.alone i hna g, by simp [g, RWLock.give, hw]⟩

theorem inv_unlock {T : Nat → Task σ ρ} (D : Disciplined T) {m0 : σ} {s : Sys σ ρ} {order act : List Nat}
    (inv : LockInv T m0 s order act) {i : Nat} {r : ρ} (hi : s.phase i = .running (.ret r)) {l : RWLock}
    (hl : s.lock.give (T i).release = .ok l) :
    LockInv T m0 { s with lock := l, phase := setPhase s.phase i (.done r) } (order ++ [i]) (act.erase i) := by
  have hna : i ∈ act := (inv.isRunning i).mp ⟨_, hi⟩
  have hno : i ∉ order := fun h => by obtain ⟨p, hp⟩ := (inv.isDone i).mpr h; rw [hi] at hp; cases hp
  -- the memory and result of the section
  have hrun : ((T i).body.run (seqRun T m0 order).1) = (s.mem, r) := by
    rcases mode_cases (T i).acquire with g | g
    · obtain ⟨-, h2⟩ := inv.reading i _ hi g
      rcases give_ok D inv hi with ⟨_, hw, _, _⟩ | ⟨g', _⟩
      · have := ReadOnly.run_mem (D.ro i g) (seqRun T m0 order).1
        apply Prod.ext
        · rw [this]; exact (inv.quiet hw).symm
        · exact h2.symm
      · rw [g] at g'; cases g'
    · exact (inv.writing i _ hi g).symm
  have hseq : (seqRun T m0 (order ++ [i])).1 = s.mem := by rw [seqRun_append]; simp [seqRun, hrun]
  have hseq2 : (seqRun T m0 (order ++ [i])).2 = (seqRun T m0 order).2 ++ [r] := by rw [seqRun_append]; simp [seqRun, hrun]
  have mem_erase : ∀ j, j ∈ act.erase i ↔ j ≠ i ∧ j ∈ act := fun j => inv.actNodup.mem_erase_iff
  refine ⟨?_, inv.actNodup.erase i, ?_, ?_, ?_, ?_, ?_, ?_, ?_, ?_, ?_⟩
  · rw [List.nodup_append]
    refine ⟨inv.nodup, by simp, ?_⟩
    intro a ha b hb e
    subst e
    exact hno (List.mem_singleton.mp hb ▸ ha)
  · intro j
    by_cases e : j = i
    · subst e; simp [setPhase_same]
    · simp only [setPhase_ne _ _ _ _ e, List.mem_append, List.mem_singleton, e, or_false]; exact inv.isDone j
  · intro j
    by_cases e : j = i
    · subst e; simp [setPhase_same, mem_erase]
    · simp only [setPhase_ne _ _ _ _ e, mem_erase, ne_eq, e, not_false_eq_true, true_and]; exact inv.isRunning j
  · intro k j hk
    rw [hseq2]
    rw [List.getElem?_append] at hk ⊢
    rw [seqRun_length]
    by_cases hlt : k < order.length
    · rw [if_pos hlt] at hk ⊢
      obtain ⟨r', h1, h2⟩ := inv.results k j hk
      have e : j ≠ i := fun e => hno (e ▸ List.mem_of_getElem? hk)
      exact ⟨r', h1, by simp only [setPhase_ne _ _ _ _ e]; exact h2⟩
    · rw [if_neg hlt] at hk ⊢
      have e : k - order.length = 0 := by
        rcases Nat.eq_zero_or_pos (k - order.length) with h | h
        · exact h
        · rw [List.getElem?_eq_none (by simp; omega)] at hk; cases hk
      rw [e] at hk ⊢
      simp only [List.getElem?_cons_zero, Option.some.injEq] at hk
      subst hk
      exact ⟨r, rfl, by simp [setPhase_same]⟩
  · rcases give_ok D inv hi with ⟨g, hw, h0, e⟩ | ⟨g, hw, ha, e⟩ <;> rw [e] at hl <;> simp only [Outcome.ok.injEq] at hl <;> subst hl
    · simp only [inv.readers, readersIn]
      rw [← List.length_erase_of_mem (a := i) (by simp [hna, g])]
      congr 1
      rw [inv.actNodup.erase_eq_filter, List.Nodup.erase_eq_filter (inv.actNodup.filter _), List.filter_filter, List.filter_filter]
      congr 1
      funext x
      exact Bool.and_comm _ _
    · subst ha
      simp [readersIn, g, inv.readers]
  · rcases give_ok D inv hi with ⟨g, hw, h0, e⟩ | ⟨g, hw, ha, e⟩ <;> rw [e] at hl <;> simp only [Outcome.ok.injEq] at hl <;> subst hl
    · simp only [hw, Bool.false_eq_true, false_iff]
      rintro ⟨j, hj, gj⟩
      have := inv.writer.mpr ⟨j, ((mem_erase j).mp hj).2, gj⟩
      rw [hw] at this; cases this
    · subst ha; simp
  · intro j hj g
    have h := inv.alone j ((mem_erase j).mp hj).2 g
    rw [h] at hna
    exact absurd (List.mem_singleton.mp hna).symm ((mem_erase j).mp hj).1
  · intro _; exact hseq.symm
  · intro j p hp g
    by_cases e : j = i
    · subst e; simp only [setPhase_same] at hp; cases hp
    · simp only [setPhase_ne _ _ _ _ e] at hp
      obtain ⟨h1, h2⟩ := inv.reading j p hp g
      refine ⟨h1, ?_⟩
      rw [hseq]
      rcases give_ok D inv hi with ⟨g', hw, h0, _⟩ | ⟨g', hw, ha, _⟩
      · simp only; rw [h2, ← inv.quiet hw]
      · have hj := (inv.isRunning j).mp ⟨p, hp⟩
        rw [ha] at hj
        exact absurd (List.mem_singleton.mp hj) e
  · intro j p hp g
    by_cases e : j = i
    · subst e; simp only [setPhase_same] at hp; cases hp
    · simp only [setPhase_ne _ _ _ _ e] at hp
      have hj := (inv.isRunning j).mp ⟨p, hp⟩
      rw [inv.alone j hj g] at hna
      exact absurd (List.mem_singleton.mp hna).symm e

/-- every step keeps the invariant and none is fatal -/
theorem inv_exec {T : Nat → Task σ ρ} (D : Disciplined T) {m0 : σ} {s : Sys σ ρ} {order act : List Nat}
    (inv : LockInv T m0 s order act) (e : LockEv) :
    s.exec T e = .blocked ∨ ∃ s' act', s.exec T e = .ok s' ∧ LockInv T m0 s' (order ++ finished [e]) act' := by
  cases e with
  | lock i =>
    simp only [Sys.exec, finished, List.append_nil]
    split
    · rename_i hi
      split
      · rename_i l hl; exact .inr ⟨_, _, rfl, inv_lock D inv hi hl⟩
      · exact .inl rfl
      · rename_i hl
        revert hl; cases (T i).acquire <;> simp only [RWLock.take] <;> split <;> simp
    · exact .inl rfl
  | step i =>
    simp only [Sys.exec, finished, List.append_nil]
    split
    · rename_i w n hi; exact .inr ⟨_, _, rfl, inv_step inv hi⟩
    · exact .inl rfl
  | unlock i =>
    simp only [Sys.exec, finished]
    split
    · rename_i r hi
      split
      · rename_i l hl; exact .inr ⟨_, _, rfl, inv_unlock D inv hi hl⟩
      · exact .inl rfl
      · rename_i hl
        rcases give_ok D inv hi with ⟨_, _, _, h⟩ | ⟨_, _, _, h⟩ <;> rw [h] at hl <;> cases hl
    · exact .inl rfl

theorem finished_append (a b : List LockEv) : finished (a ++ b) = finished a ++ finished b := by
  induction a with
  | nil => rfl
  | cons e a ih => cases e <;> simp [finished, ih]

theorem inv_execAll {T : Nat → Task σ ρ} (D : Disciplined T) {m0 : σ} (es : List LockEv) :
    ∀ {s : Sys σ ρ} {order act : List Nat}, LockInv T m0 s order act →
    s.execAll T es = .blocked ∨ ∃ s' act', s.execAll T es = .ok s' ∧ LockInv T m0 s' (order ++ finished es) act' := by
  induction es with
  | nil => intro s order act inv; exact .inr ⟨s, act, rfl, by simpa [finished] using inv⟩
  | cons e es ih =>
    intro s order act inv
    simp only [Sys.execAll]
    rcases inv_exec D inv e with h | ⟨s', act', h, inv'⟩
    · rw [h]; exact .inl rfl
    · rw [h]
      rcases ih inv' with h2 | ⟨s2, act2, h2, inv2⟩
      · exact .inl h2
      · refine .inr ⟨s2, act2, h2, ?_⟩
        rw [show e :: es = [e] ++ es from rfl, finished_append, ← List.append_assoc]
        exact inv2

theorem execAll_inv {T : Nat → Task σ ρ} (D : Disciplined T) (m0 : σ) (es : List LockEv) (s : Sys σ ρ)
    (h : (Sys.initial m0).execAll T es = .ok s) : ∃ act, LockInv T m0 s (finished es) act := by
  rcases inv_execAll D es (inv_initial T m0) with h' | ⟨s', act', h', inv⟩
  · rw [h] at h'; cases h'
  · rw [h] at h'
    simp only [Outcome.ok.injEq] at h'
    subst h'
    exact ⟨act', by simpa using inv⟩

/-- no deadlock: something can happen as long as somebody is not done -/
theorem inv_progress {T : Nat → Task σ ρ} (D : Disciplined T) {m0 : σ} {s : Sys σ ρ} {order act : List Nat}
    (inv : LockInv T m0 s order act) (i : Nat) (hi : ∀ r, s.phase i ≠ .done r) : ∃ e s', s.exec T e = .ok s' := by
  cases act with
  | nil =>
    have hidle : s.phase i = .idle := by
      cases h : s.phase i with
      | idle => rfl
      | running p => exact absurd ((inv.isRunning i).mp ⟨p, h⟩) (by simp)
      | done r => exact absurd h (hi r)
    have hw : s.lock.writer = false := by
      cases h : s.lock.writer with
      | false => rfl
      | true => obtain ⟨j, hj, _⟩ := inv.writer.mp h; simp at hj
    have hr : s.lock.readers = 0 := by simpa [readersIn] using inv.readers
    refine ⟨.lock i, ?_⟩
    rcases mode_cases (T i).acquire with g | g <;> simp [Sys.exec, hidle, RWLock.take, g, hw, hr]
  | cons j js =>
    obtain ⟨p, hp⟩ := (inv.isRunning j).mpr List.mem_cons_self
    cases p with
    | act w n => exact ⟨.step j, by simp [Sys.exec, hp]⟩
    | ret r =>
      refine ⟨.unlock j, ?_⟩
      rcases give_ok D inv hp with ⟨_, _, _, h⟩ | ⟨_, _, _, h⟩ <;> simp [Sys.exec, hp, h]

end Coniks
