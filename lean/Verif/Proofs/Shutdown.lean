import Verif.Model.Shutdown
/-
Invariant of the goroutines of a server.
-/
namespace Coniks

structure ProcInv (p : Proc) (L B K : List Nat) : Prop where
  nL : L.Nodup
  nB : B.Nodup
  nK : K.Nodup
  memL : ∀ i, i ∈ L ↔ p.lst i ≠ .off ∧ p.lst i ≠ .exited
  memB : ∀ i, i ∈ B ↔ p.bg i ≠ .off ∧ p.bg i ≠ .exited
  memK : ∀ i, i ∈ K ↔ p.conn i = .open
  cStop : p.waitStop = L.length + B.length
  cConn : p.waitConn = K.length
  hold : K ≠ [] → L ≠ []
  blockedK : ∀ i, p.lst i = .blocked → K ≠ []
  ret : p.main = .returned → p.waitStop = 0
  stopped : p.main ≠ .running → p.stop = true

theorem upd_same {α : Type} (f : Nat → α) (i : Nat) (a : α) : upd f i a i = a := by simp [upd]
theorem upd_ne {α : Type} (f : Nat → α) (i j : Nat) (a : α) (h : j ≠ i) : upd f i a j = f j := by simp [upd, h]

theorem procInv_initial : ProcInv Proc.initial [] [] [] where
  nL := List.nodup_nil
  nB := List.nodup_nil
  nK := List.nodup_nil
  memL := by simp [Proc.initial]
  memB := by simp [Proc.initial]
  memK := by simp [Proc.initial]
  cStop := rfl
  cConn := rfl
  hold := fun h => absurd rfl h
  blockedK := by simp [Proc.initial]
  ret := by simp [Proc.initial]
  stopped := by simp [Proc.initial]

/-- moving a listener inside its loop -/
theorem memL_move {f : Nat → LPhase} {L : List Nat} (memL : ∀ i, i ∈ L ↔ f i ≠ .off ∧ f i ≠ .exited) {i : Nat} {a : LPhase}
    (hi : i ∈ L) (ha : a ≠ .off ∧ a ≠ .exited) : ∀ j, j ∈ L ↔ upd f i a j ≠ .off ∧ upd f i a j ≠ .exited := by
  intro j
  by_cases e : j = i
  · subst e; rw [upd_same]; exact ⟨fun _ => ha, fun _ => hi⟩
  · rw [upd_ne _ _ _ _ e]; exact memL j

theorem mem_exit {α : Type} {f : Nat → α} {P : α → Prop} {L : List Nat} (nd : L.Nodup) (mem : ∀ i, i ∈ L ↔ P (f i)) {i : Nat}
    {a : α} (ha : ¬ P a) : ∀ j, j ∈ L.erase i ↔ P (upd f i a j) := by
  intro j
  rw [nd.mem_erase_iff]
  by_cases e : j = i
  · subst e; rw [upd_same]; simp [ha]
  · rw [upd_ne _ _ _ _ e]; simp [e, mem j]

theorem length_erase_mem {L : List Nat} {i : Nat} (h : i ∈ L) : (L.erase i).length + 1 = L.length := by
  rw [List.length_erase_of_mem h]
  have := List.length_pos_of_mem h
  omega

theorem procInv_step {p p' : Proc} {L B K : List Nat} (inv : ProcInv p L B K) (e : ProcEv) (h : p.exec e = .ok p') :
    ∃ L' B' K', ProcInv p' L' B' K' := by
  obtain ⟨nL, nB, nK, memL, memB, memK, cStop, cConn, hold, blockedK, ret, stopped⟩ := inv
  have K0 : p.waitConn = 0 → K = [] := fun h0 => List.length_eq_zero_iff.mp (by omega)
  cases e with
  | startListener i =>
    simp only [Proc.exec] at h
    split at h
    · rename_i c
      cases h
      have hi : i ∉ L := fun hi => ((memL i).mp hi).1 c.2
      refine ⟨i :: L, B, K, ⟨List.nodup_cons.mpr ⟨hi, nL⟩, nB, nK, ?_, memB, memK, ?_, cConn, fun _ => by simp, ?_, ?_, ?_⟩⟩
      · intro j
        by_cases e : j = i
        · subst e; simp [upd_same]
        · simp only [upd_ne _ _ _ _ e, List.mem_cons, e, false_or]; exact memL j
      · simp only [cStop, List.length_cons]; omega
      · intro j hj
        by_cases e : j = i
        · subst e; simp only [upd_same] at hj; cases hj
        · simp only [upd_ne _ _ _ _ e] at hj; exact blockedK j hj
      · intro hm; simp only [c.1] at hm; cases hm
      · intro hm; exact absurd c.1 hm
    · cases h
  | startLoop i =>
    simp only [Proc.exec] at h
    split at h
    · rename_i c
      cases h
      have hi : i ∉ B := fun hi => ((memB i).mp hi).1 c.2
      refine ⟨L, i :: B, K, ⟨nL, List.nodup_cons.mpr ⟨hi, nB⟩, nK, memL, ?_, memK, ?_, cConn, hold, blockedK, ?_, ?_⟩⟩
      · intro j
        by_cases e : j = i
        · subst e; simp [upd_same]
        · simp only [upd_ne _ _ _ _ e, List.mem_cons, e, false_or]; exact memB j
      · simp only [cStop, List.length_cons]; omega
      · intro hm; simp only [c.1] at hm; cases hm
      · intro hm; exact absurd c.1 hm
    · cases h
  | checkStop i =>
    simp only [Proc.exec] at h
    split at h
    · rename_i c
      have hi : i ∈ L := (memL i).mpr ⟨by rw [c]; simp, by rw [c]; simp⟩
      split at h
      · split at h
        · rename_i h0
          cases h
          have hK := K0 h0
          refine ⟨L.erase i, B, K, ⟨nL.erase i, nB, nK, mem_exit (P := fun a : LPhase => a ≠ .off ∧ a ≠ .exited) nL memL (by simp), memB, memK, ?_,
            cConn, fun hk => absurd hK hk, ?_, ?_, stopped⟩⟩
          · have := length_erase_mem hi; simp only [cStop]; omega
          · intro j hj
            by_cases e : j = i
            · subst e; simp only [upd_same] at hj; cases hj
            · simp only [upd_ne _ _ _ _ e] at hj; exact blockedK j hj
          · intro hm; have := ret hm; simp only; omega
        · rename_i h0
          cases h
          refine ⟨L, B, K, ⟨nL, nB, nK, memL_move memL hi (by simp), memB, memK, cStop, cConn, hold, ?_, ret, stopped⟩⟩
          intro j _ hk
          exact h0 (by rw [cConn, hk]; rfl)
      · cases h
        refine ⟨L, B, K, ⟨nL, nB, nK, memL_move memL hi (by simp), memB, memK, cStop, cConn, hold, ?_, ret, stopped⟩⟩
        intro j hj
        by_cases e : j = i
        · subst e; simp only [upd_same] at hj; cases hj
        · simp only [upd_ne _ _ _ _ e] at hj; exact blockedK j hj
    · cases h
  | acceptError i =>
    simp only [Proc.exec] at h
    split at h
    · rename_i c
      have hi : i ∈ L := (memL i).mpr ⟨by rw [c]; simp, by rw [c]; simp⟩
      cases h
      refine ⟨L, B, K, ⟨nL, nB, nK, memL_move memL hi (by simp), memB, memK, cStop, cConn, hold, ?_, ret, stopped⟩⟩
      intro j hj
      by_cases e : j = i
      · subst e; simp only [upd_same] at hj; cases hj
      · simp only [upd_ne _ _ _ _ e] at hj; exact blockedK j hj
    · cases h
  | acceptConn i c =>
    simp only [Proc.exec] at h
    split at h
    · rename_i hc
      have hi : i ∈ L := (memL i).mpr ⟨by rw [hc.1]; simp, by rw [hc.1]; simp⟩
      have hcK : c ∉ K := fun hk => by rw [(memK c).mp hk] at hc; cases hc.2
      cases h
      refine ⟨L, B, c :: K, ⟨nL, nB, List.nodup_cons.mpr ⟨hcK, nK⟩, memL_move memL hi (by simp), memB, ?_, cStop, ?_,
        fun _ hl => (by rw [hl] at hi; cases hi), fun _ _ => by simp, ret, stopped⟩⟩
      · intro j
        by_cases e : j = c
        · subst e; simp [upd_same]
        · simp only [upd_ne _ _ _ _ e, List.mem_cons, e, false_or]; exact memK j
      · simp [cConn]
    · cases h
  | closeConn c =>
    simp only [Proc.exec] at h
    split at h
    · rename_i hc
      have hcK : c ∈ K := (memK c).mpr hc
      have hlen := length_erase_mem hcK
      cases h
      refine ⟨L, B, K.erase c, ⟨nL, nB, nK.erase c, ?_, memB, mem_exit (P := fun a : CPhase => a = .open) nK memK (by simp), cStop, ?_,
        fun hk => hold (fun e => by rw [e] at hcK; cases hcK), ?_, ret, stopped⟩⟩
      · intro j
        simp only
        split
        · simp only
          split
          · rename_i hb
            rw [memL j, hb]; simp
          · exact memL j
        · exact memL j
      · simp only [cConn]; omega
      · intro j hj
        simp only at hj
        split at hj
        · rename_i h1
          simp only at hj
          split at hj
          · cases hj
          · rename_i hb; exact absurd hj hb
        · rename_i h1
          intro hk
          rw [hk] at hlen
          simp only [List.length_nil] at hlen
          omega
    · cases h
  | resume i =>
    simp only [Proc.exec] at h
    split at h
    · rename_i c
      have hi : i ∈ L := (memL i).mpr ⟨by rw [c]; simp, by rw [c]; simp⟩
      split at h
      · rename_i h0
        cases h
        have hK := K0 h0
        refine ⟨L.erase i, B, K, ⟨nL.erase i, nB, nK, mem_exit (P := fun a : LPhase => a ≠ .off ∧ a ≠ .exited) nL memL (by simp), memB, memK, ?_,
          cConn, fun hk => absurd hK hk, ?_, ?_, stopped⟩⟩
        · have := length_erase_mem hi; simp only [cStop]; omega
        · intro j hj
          by_cases e : j = i
          · subst e; simp only [upd_same] at hj; cases hj
          · simp only [upd_ne _ _ _ _ e] at hj; exact blockedK j hj
        · intro hm; have := ret hm; simp only; omega
      · cases h
    · cases h
  | fire i =>
    simp only [Proc.exec] at h
    split at h
    · rename_i c
      have hi : i ∈ B := (memB i).mpr ⟨by rw [c]; simp, by rw [c]; simp⟩
      cases h
      refine ⟨L, B, K, ⟨nL, nB, nK, memL, ?_, memK, cStop, cConn, hold, blockedK, ret, stopped⟩⟩
      intro j
      by_cases e : j = i
      · subst e; simp [upd_same, hi]
      · simp only [upd_ne _ _ _ _ e]; exact memB j
    · cases h
  | finish i =>
    simp only [Proc.exec] at h
    split at h
    · rename_i c
      have hi : i ∈ B := (memB i).mpr ⟨by rw [c]; simp, by rw [c]; simp⟩
      cases h
      refine ⟨L, B, K, ⟨nL, nB, nK, memL, ?_, memK, cStop, cConn, hold, blockedK, ret, stopped⟩⟩
      intro j
      by_cases e : j = i
      · subst e; simp [upd_same, hi]
      · simp only [upd_ne _ _ _ _ e]; exact memB j
    · cases h
  | leave i =>
    simp only [Proc.exec] at h
    split at h
    · rename_i c
      have hi : i ∈ B := (memB i).mpr ⟨by rw [c.1]; simp, by rw [c.1]; simp⟩
      cases h
      refine ⟨L, B.erase i, K, ⟨nL, nB.erase i, nK, memL, mem_exit (P := fun a : BPhase => a ≠ .off ∧ a ≠ .exited) nB memB (by simp), memK, ?_,
        cConn, hold, blockedK, ?_, stopped⟩⟩
      · have := length_erase_mem hi; simp only [cStop]; omega
      · intro hm; have := ret hm; simp only; omega
    · cases h
  | shutdown =>
    simp only [Proc.exec] at h
    split at h
    · cases h
      exact ⟨L, B, K, ⟨nL, nB, nK, memL, memB, memK, cStop, cConn, hold, blockedK, fun hm => by simp at hm, fun _ => rfl⟩⟩
    · cases h
  | return_ =>
    simp only [Proc.exec] at h
    split at h
    · rename_i c
      cases h
      exact ⟨L, B, K, ⟨nL, nB, nK, memL, memB, memK, cStop, cConn, hold, blockedK, fun _ => c.2,
        fun _ => stopped (by rw [c.1]; simp)⟩⟩
    · cases h

theorem procInv_all (es : List ProcEv) : ∀ {p p' : Proc} {L B K : List Nat}, ProcInv p L B K → p.execAll es = .ok p' →
    ∃ L' B' K', ProcInv p' L' B' K' := by
  induction es with
  | nil => intro p p' L B K inv h; cases h; exact ⟨L, B, K, inv⟩
  | cons e es ih =>
    intro p p' L B K inv h
    simp only [Proc.execAll] at h
    split at h
    · rename_i q hq
      obtain ⟨L1, B1, K1, inv1⟩ := procInv_step inv e hq
      exact ih inv1 h
    · cases h
    · cases h

/-- after `Shutdown` nothing is left -/
theorem procInv_returned {p : Proc} {L B K : List Nat} (inv : ProcInv p L B K) (h : p.main = .returned) :
    (∀ i, p.lst i = .off ∨ p.lst i = .exited) ∧ (∀ i, p.bg i = .off ∨ p.bg i = .exited) ∧ (∀ c, p.conn c ≠ .open) := by
  have h0 := inv.ret h
  rw [inv.cStop] at h0
  have hL : L = [] := List.length_eq_zero_iff.mp (by omega)
  have hB : B = [] := List.length_eq_zero_iff.mp (by omega)
  have hK : K = [] := Classical.byContradiction fun hk => inv.hold hk hL
  refine ⟨fun i => ?_, fun i => ?_, fun c hc => ?_⟩
  · have := inv.memL i
    rw [hL] at this
    cases hp : p.lst i <;> simp [hp] at this ⊢
  · have := inv.memB i
    rw [hB] at this
    cases hp : p.bg i <;> simp [hp] at this ⊢
  · have := (inv.memK c).mpr hc
    rw [hK] at this; cases this

/-- with a single listener, nothing is added to the wait group once the listener waits for it -/
structure Single (k : Nat) (p : Proc) : Prop where
  only : ∀ i, i ≠ k → p.lst i = .off
  woken : p.lst k = .woken → p.waitConn = 0

theorem single_step {k : Nat} {p p' : Proc} (s : Single k p) (e : ProcEv) (hs : ∀ i, e = .startListener i → i = k) :
    p.exec e ≠ .fatal ∧ (p.exec e = .ok p' → Single k p') := by
  obtain ⟨only, woken⟩ := s
  have one : ∀ {i}, p.lst i ≠ .off → i = k := fun {i} h => Classical.byContradiction fun hne => h (only i hne)
  have set : ∀ {a : LPhase} (q : Proc), q.lst = upd p.lst k a → a ≠ .woken → Single k q := by
    intro a q hq ha
    refine ⟨fun i hi => by rw [hq, upd_ne _ _ _ _ hi]; exact only i hi, fun hw => ?_⟩
    rw [hq, upd_same] at hw; exact absurd hw ha
  have same : ∀ (q : Proc), q.lst = p.lst → q.waitConn = p.waitConn → Single k q := by
    intro q h1 h2
    exact ⟨by rw [h1]; exact only, by rw [h1, h2]; exact woken⟩
  cases e with
  | startListener i =>
    have hi := hs i rfl
    subst hi
    simp only [Proc.exec]
    split <;> refine ⟨by simp, fun h => ?_⟩ <;> cases h
    exact set _ rfl (by simp)
  | startLoop i =>
    simp only [Proc.exec]
    split <;> refine ⟨by simp, fun h => ?_⟩ <;> cases h
    exact same _ rfl rfl
  | checkStop i =>
    simp only [Proc.exec]
    split
    · rename_i c
      have hi := one (i := i) (by rw [c]; simp)
      subst hi
      split
      · split <;> refine ⟨by simp, fun h => ?_⟩ <;> cases h
        · exact set _ rfl (by simp)
        · exact set _ rfl (by simp)
      · refine ⟨by simp, fun h => ?_⟩
        cases h
        exact set _ rfl (by simp)
    · exact ⟨by simp, fun h => (nomatch h)⟩
  | acceptError i =>
    simp only [Proc.exec]
    split
    · rename_i c
      have hi := one (i := i) (by rw [c]; simp)
      subst hi
      refine ⟨by simp, fun h => ?_⟩
      cases h
      exact set _ rfl (by simp)
    · exact ⟨by simp, fun h => (nomatch h)⟩
  | acceptConn i c =>
    simp only [Proc.exec]
    split
    · rename_i hc
      have hi := one (i := i) (by rw [hc.1]; simp)
      subst hi
      refine ⟨by simp, fun h => ?_⟩
      cases h
      exact set _ rfl (by simp)
    · exact ⟨by simp, fun h => (nomatch h)⟩
  | closeConn c =>
    simp only [Proc.exec]
    split
    · refine ⟨by simp, fun h => ?_⟩
      cases h
      refine ⟨fun i hi => ?_, fun hw => ?_⟩
      · simp only
        split
        · simp [only i hi]
        · exact only i hi
      · simp only at hw ⊢
        split at hw
        · omega
        · have := woken hw; omega
    · exact ⟨by simp, fun h => (nomatch h)⟩
  | resume i =>
    simp only [Proc.exec]
    split
    · rename_i c
      have hi := one (i := i) (by rw [c]; simp)
      subst hi
      rw [if_pos (woken c)]
      refine ⟨by simp, fun h => ?_⟩
      cases h
      exact set _ rfl (by simp)
    · exact ⟨by simp, fun h => (nomatch h)⟩
  | fire i =>
    simp only [Proc.exec]
    split <;> refine ⟨by simp, fun h => ?_⟩ <;> cases h
    exact same _ rfl rfl
  | finish i =>
    simp only [Proc.exec]
    split <;> refine ⟨by simp, fun h => ?_⟩ <;> cases h
    exact same _ rfl rfl
  | leave i =>
    simp only [Proc.exec]
    split <;> refine ⟨by simp, fun h => ?_⟩ <;> cases h
    exact same _ rfl rfl
  | shutdown =>
    simp only [Proc.exec]
    split <;> refine ⟨by simp, fun h => ?_⟩ <;> cases h
    exact same _ rfl rfl
  | return_ =>
    simp only [Proc.exec]
    split <;> refine ⟨by simp, fun h => ?_⟩ <;> cases h
    exact same _ rfl rfl

theorem single_all (es : List ProcEv) {k : Nat} (hs : ∀ i, ProcEv.startListener i ∈ es → i = k) : ∀ {p : Proc}, Single k p →
    p.execAll es ≠ .fatal := by
  induction es with
  | nil => intro p _ h; cases h
  | cons e es ih =>
    intro p s h
    simp only [Proc.execAll] at h
    have hs' : ∀ i, e = .startListener i → i = k := fun i he => hs i (by rw [he]; exact List.mem_cons_self)
    split at h
    · rename_i q hq
      exact ih (fun i hi => hs i (List.mem_cons_of_mem _ hi)) ((single_step s e hs').2 hq) h
    · cases h
    · rename_i hq
      exact (single_step (p' := p) s e hs').1 hq

/-- sum of `f` below `n` -/
def sumTo (f : Nat → Nat) : Nat → Nat
  | 0 => 0
  | n + 1 => sumTo f n + f n

theorem sumTo_le {f g : Nat → Nat} (h : ∀ i, f i ≤ g i) : ∀ n, sumTo f n ≤ sumTo g n
  | 0 => Nat.le_refl _
  | n + 1 => Nat.add_le_add (sumTo_le h n) (h n)

theorem sumTo_lt {f g : Nat → Nat} (h : ∀ i, f i ≤ g i) {i : Nat} (hi : f i < g i) : ∀ n, i < n → sumTo f n < sumTo g n
  | n + 1, hn => by
    by_cases e : i = n
    · subst e
      have := sumTo_le h i
      simp only [sumTo]; omega
    · have := sumTo_lt h hi n (by omega)
      have := h n
      simp only [sumTo]; omega

/-- steps a listener, a connection, a loop still needs -/
def LPhase.todo : LPhase → Nat
  | .accept => 3 | .check => 2 | .blocked => 1 | .woken => 1 | _ => 0
def CPhase.todo : CPhase → Nat
  | .open => 1 | _ => 0
def BPhase.todo : BPhase → Nat
  | .busy => 2 | .idle => 1 | _ => 0

def Proc.todo (p : Proc) (n : Nat) : Nat :=
  sumTo (fun i => (p.lst i).todo) n + sumTo (fun i => (p.conn i).todo) n + sumTo (fun i => (p.bg i).todo) n

/-- what is active lies below `n` -/
structure Proc.Below (p : Proc) (n : Nat) : Prop where
  l : ∀ i, (p.lst i).todo ≠ 0 → i < n
  c : ∀ i, (p.conn i).todo ≠ 0 → i < n
  b : ∀ i, (p.bg i).todo ≠ 0 → i < n

theorem todo_upd_le {α : Type} (w : α → Nat) (f : Nat → α) (i : Nat) (a : α) (h : w a ≤ w (f i)) :
    ∀ j, w (upd f i a j) ≤ w (f j) := by
  intro j
  by_cases e : j = i
  · subst e; rw [upd_same]; exact h
  · rw [upd_ne _ _ _ _ e]; exact Nat.le_refl _

/-- a step that moves every goroutine towards its end -/
structure Proc.Closer (p p' : Proc) (n : Nat) : Prop where
  l : ∀ i, (p'.lst i).todo ≤ (p.lst i).todo
  c : ∀ i, (p'.conn i).todo ≤ (p.conn i).todo
  b : ∀ i, (p'.bg i).todo ≤ (p.bg i).todo
  strict : (∃ i, i < n ∧ (p'.lst i).todo < (p.lst i).todo) ∨ (∃ i, i < n ∧ (p'.conn i).todo < (p.conn i).todo) ∨
    (∃ i, i < n ∧ (p'.bg i).todo < (p.bg i).todo)
  main : p'.main = p.main

theorem Proc.Closer.todo {p p' : Proc} {n : Nat} (h : p.Closer p' n) : p'.todo n < p.todo n := by
  have a := sumTo_le h.l n
  have b := sumTo_le h.c n
  have c := sumTo_le h.b n
  unfold Proc.todo
  rcases h.strict with ⟨i, hi, hs⟩ | ⟨i, hi, hs⟩ | ⟨i, hi, hs⟩
  · have := sumTo_lt h.l hs n hi; omega
  · have := sumTo_lt h.c hs n hi; omega
  · have := sumTo_lt h.b hs n hi; omega

theorem Proc.Closer.below {p p' : Proc} {n : Nat} (h : p.Closer p' n) (hb : p.Below n) : p'.Below n :=
  ⟨fun i hi => hb.l i (by have := h.l i; omega), fun i hi => hb.c i (by have := h.c i; omega),
    fun i hi => hb.b i (by have := h.b i; omega)⟩

theorem closer_lst {p : Proc} {n : Nat} (hb : p.Below n) {i : Nat} {a : LPhase} (ha : a.todo < (p.lst i).todo) (q : Proc)
    (h1 : q.lst = upd p.lst i a) (h2 : q.conn = p.conn) (h3 : q.bg = p.bg) (h4 : q.main = p.main) : p.Closer q n := by
  refine ⟨?_, by simp [h2], by simp [h3], .inl ⟨i, hb.l i (by omega), ?_⟩, h4⟩
  · rw [h1]; exact todo_upd_le LPhase.todo p.lst i a (by omega)
  · rw [h1, upd_same]; exact ha

theorem closer_bg {p : Proc} {n : Nat} (hb : p.Below n) {i : Nat} {a : BPhase} (ha : a.todo < (p.bg i).todo) (q : Proc)
    (h1 : q.bg = upd p.bg i a) (h2 : q.conn = p.conn) (h3 : q.lst = p.lst) (h4 : q.main = p.main) : p.Closer q n := by
  refine ⟨by simp [h3], by simp [h2], ?_, .inr (.inr ⟨i, hb.b i (by omega), ?_⟩), h4⟩
  · rw [h1]; exact todo_upd_le BPhase.todo p.bg i a (by omega)
  · rw [h1, upd_same]; exact ha

/-- while `Shutdown` waits, it can return or some goroutine can move towards its end -/
theorem procInv_progress {p : Proc} {L B K : List Nat} (inv : ProcInv p L B K) (h : p.main = .waiting) {n : Nat} (hb : p.Below n) :
    p.waitStop = 0 ∨ ∃ e p', p.exec e = .ok p' ∧ p.Closer p' n := by
  have hstop : p.stop = true := inv.stopped (by rw [h]; simp)
  cases hK : K with
  | cons c K' =>
    have hc := (inv.memK c).mp (by rw [hK]; exact List.mem_cons_self)
    refine .inr ⟨.closeConn c, _, (by simp only [Proc.exec, hc, if_true]; rfl), ?_⟩
    refine ⟨fun i => ?_, todo_upd_le CPhase.todo p.conn c _ (by rw [hc]; decide), fun i => Nat.le_refl _,
      .inr (.inl ⟨c, hb.c c (by rw [hc]; decide), ?_⟩), rfl⟩
    · simp only
      split
      · simp only
        split
        · rename_i hbk; rw [hbk]; decide
        · exact Nat.le_refl _
      · exact Nat.le_refl _
    · simp only [upd_same, hc]; decide
  | nil =>
    have h0 : p.waitConn = 0 := by rw [inv.cConn, hK]; rfl
    cases hB : B with
    | cons i B' =>
      have hi := (inv.memB i).mp (by rw [hB]; exact List.mem_cons_self)
      cases hbi : p.bg i with
      | off => exact absurd hbi hi.1
      | exited => exact absurd hbi hi.2
      | idle =>
        refine .inr ⟨.leave i, _, (by simp only [Proc.exec, hbi, hstop, and_self, if_true]; rfl), ?_⟩
        exact closer_bg (a := .exited) hb (by rw [hbi]; decide) _ rfl rfl rfl rfl
      | busy =>
        refine .inr ⟨.finish i, _, (by simp only [Proc.exec, hbi, if_true]; rfl), ?_⟩
        exact closer_bg (a := .idle) hb (by rw [hbi]; decide) _ rfl rfl rfl rfl
    | nil =>
      cases hL : L with
      | nil => exact .inl (by rw [inv.cStop, hL, hB]; rfl)
      | cons i L' =>
        have hi := (inv.memL i).mp (by rw [hL]; exact List.mem_cons_self)
        cases hl : p.lst i with
        | off => exact absurd hl hi.1
        | exited => exact absurd hl hi.2
        | check =>
          refine .inr ⟨.checkStop i, _, (by simp only [Proc.exec, hl, if_true, hstop, h0]; rfl), ?_⟩
          exact closer_lst (a := .exited) hb (by rw [hl]; decide) _ rfl rfl rfl rfl
        | accept =>
          refine .inr ⟨.acceptError i, _, (by simp only [Proc.exec, hl, if_true]; rfl), ?_⟩
          exact closer_lst (a := .check) hb (by rw [hl]; decide) _ rfl rfl rfl rfl
        | woken =>
          refine .inr ⟨.resume i, _, (by simp only [Proc.exec, hl, if_true, h0]; rfl), ?_⟩
          exact closer_lst (a := .exited) hb (by rw [hl]; decide) _ rfl rfl rfl rfl
        | blocked => exact absurd hK (inv.blockedK i hl)

theorem execAll_cons_ok {p q : Proc} {e : ProcEv} {es : List ProcEv} (h : p.exec e = .ok q) : p.execAll (e :: es) = q.execAll es := by
  simp only [Proc.execAll, h]

/-- from every state `Shutdown` can be brought to return -/
theorem procInv_finish : ∀ (k : Nat) {p : Proc} {L B K : List Nat} {n : Nat}, ProcInv p L B K → p.main = .waiting → p.Below n →
    p.todo n ≤ k → ∃ es p', p.execAll es = .ok p' ∧ p'.main = .returned := by
  intro k
  induction k with
  | zero =>
    intro p L B K n inv hm hb hk
    rcases procInv_progress inv hm hb with h0 | ⟨e, p', he, hc⟩
    · exact ⟨[.return_], _, by rw [execAll_cons_ok (by simp only [Proc.exec, hm, h0, and_self, if_true]; rfl)]; rfl, rfl⟩
    · have := hc.todo; omega
  | succ k ih =>
    intro p L B K n inv hm hb hk
    rcases procInv_progress inv hm hb with h0 | ⟨e, p', he, hc⟩
    · exact ⟨[.return_], _, by rw [execAll_cons_ok (by simp only [Proc.exec, hm, h0, and_self, if_true]; rfl)]; rfl, rfl⟩
    · obtain ⟨L', B', K', inv'⟩ := procInv_step inv e he
      obtain ⟨es, q, h1, h2⟩ := ih inv' (hc.main.trans hm) (hc.below hb) (by have := hc.todo; omega)
      exact ⟨e :: es, q, by rw [execAll_cons_ok he]; exact h1, h2⟩

theorem mem_le_sum (l : List Nat) : ∀ i ∈ l, i ≤ l.sum := by
  induction l with
  | nil => intro i hi; cases hi
  | cons a l ih =>
    intro i hi
    rw [List.sum_cons]
    rcases List.mem_cons.mp hi with e | e
    · omega
    · have := ih i e; omega

theorem procInv_below {p : Proc} {L B K : List Nat} (inv : ProcInv p L B K) : p.Below (L.sum + B.sum + K.sum + 1) := by
  refine ⟨fun i hi => ?_, fun i hi => ?_, fun i hi => ?_⟩
  · have := mem_le_sum L i ((inv.memL i).mpr ⟨fun e => by rw [e] at hi; exact hi rfl, fun e => by rw [e] at hi; exact hi rfl⟩); omega
  · have := mem_le_sum K i ((inv.memK i).mpr (by cases hc : p.conn i <;> simp [hc, CPhase.todo] at hi ⊢)); omega
  · have := mem_le_sum B i ((inv.memB i).mpr ⟨fun e => by rw [e] at hi; exact hi rfl, fun e => by rw [e] at hi; exact hi rfl⟩); omega

end Coniks
