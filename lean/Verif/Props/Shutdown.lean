import Verif.Proofs.Shutdown
/-
C52: shutting down a server.
-/
namespace Coniks.Props
open Coniks

/-- C52. In every execution with any number of listeners, connections and background loops: when `Shutdown` has returned, no listener,
no connection and no background round is active, and none can become active any more: no step of any goroutine is possible, so the
directory is never touched again. -/
theorem C52_nothing_after_shutdown (es : List ProcEv) (p : Proc) (h : Proc.initial.execAll es = .ok p) (hr : p.main = .returned) :
    (∀ i, p.lst i = .off ∨ p.lst i = .exited) ∧ (∀ i, p.bg i = .off ∨ p.bg i = .exited) ∧ (∀ c, p.conn c ≠ .open) ∧
    ∀ e, p.exec e = .blocked := by
  obtain ⟨L, B, K, inv⟩ := procInv_all es procInv_initial h
  obtain ⟨h1, h2, h3⟩ := procInv_returned inv hr
  refine ⟨h1, h2, h3, fun e => ?_⟩
  cases e with
  | startListener i => simp [Proc.exec, hr]
  | startLoop i => simp [Proc.exec, hr]
  | checkStop i => rcases h1 i with g | g <;> simp [Proc.exec, g]
  | acceptError i => rcases h1 i with g | g <;> simp [Proc.exec, g]
  | acceptConn i c => rcases h1 i with g | g <;> simp [Proc.exec, g]
  | closeConn c => simp [Proc.exec, h3 c]
  | resume i => rcases h1 i with g | g <;> simp [Proc.exec, g]
  | fire i => rcases h2 i with g | g <;> simp [Proc.exec, g]
  | finish i => rcases h2 i with g | g <;> simp [Proc.exec, g]
  | leave i => rcases h2 i with g | g <;> simp [Proc.exec, g]
  | shutdown => simp [Proc.exec, hr]
  | return_ => simp [Proc.exec, hr]

/-- C52. `Shutdown` never gets stuck: whatever has happened before, once it waits there is a continuation of the execution (open
connections finish, rounds end, pending `Accept`s fail at their deadline) in which it returns. -/
theorem C52_no_deadlock (es : List ProcEv) (p : Proc) (h : Proc.initial.execAll es = .ok p) (hw : p.main = .waiting) :
    ∃ es' p', p.execAll es' = .ok p' ∧ p'.main = .returned := by
  obtain ⟨L, B, K, inv⟩ := procInv_all es procInv_initial h
  exact procInv_finish _ inv hw (procInv_below inv) (Nat.le_refl _)

/-- C52, PARTIAL. A server with a single address never crashes in its wait groups. Missing: with two addresses it can, see below. -/
theorem C52_no_crash_partial (es : List ProcEv) (hone : ∀ i, ProcEv.startListener i ∈ es → i = 0) :
    Proc.initial.execAll es ≠ .fatal :=
  single_all es hone ⟨fun _ _ => rfl, fun h => by simp [Proc.initial] at h⟩

/-- C52: exactly which servers can crash in their wait groups. `S`: the listeners that `Run` starts, one per address of the configuration. Some execution is fatal
if and only if there are two of them. -/
theorem C52_crash_iff (S : Nat → Prop) :
    (∃ es, (∀ i, ProcEv.startListener i ∈ es → S i) ∧ Proc.initial.execAll es = .fatal) ↔ ∃ i j, i ≠ j ∧ S i ∧ S j := by
  constructor
  · intro ⟨es, hS, hf⟩
    refine Classical.byContradiction fun hn => ?_
    have one : ∀ i j, S i → S j → i = j := fun i j hi hj => Classical.byContradiction fun hne => hn ⟨i, j, hne, hi, hj⟩
    by_cases he : ∃ k, S k
    · obtain ⟨k, hk⟩ := he
      exact single_all es (fun i hi => one i k (hS i hi) hk) ⟨fun _ _ => rfl, fun h => by simp [Proc.initial] at h⟩ hf
    · exact single_all (k := 0) es (fun i hi => absurd ⟨i, hS i hi⟩ he) ⟨fun _ _ => rfl, fun h => by simp [Proc.initial] at h⟩ hf
  · intro ⟨i, j, hne, hi, hj⟩
    refine ⟨[.startListener i, .startListener j, .checkStop i, .checkStop j, .acceptConn i 0, .shutdown, .checkStop i, .closeConn 0, .acceptConn j 1,
      .resume i], fun k hk => ?_, ?_⟩
    · simp only [List.mem_cons, ProcEv.startListener.injEq, reduceCtorEq, List.not_mem_nil, or_false, false_or] at hk
      rcases hk with rfl | rfl
      · exact hi
      · exact hj
    · simp [Proc.execAll, Proc.exec, Proc.initial, upd, hne, Ne.symm hne]

/-- C52 is false for two addresses (the default configuration has two): the listeners share one wait group, and if one of them accepts a
connection between the moment the last connection finishes and the moment the other listener returns from `Wait`, the process
panics ("WaitGroup is reused before previous Wait has returned"). -/
theorem C52_two_listeners_counterexample :
    Proc.initial.execAll [.startListener 0, .startListener 1, .checkStop 0, .checkStop 1, .acceptConn 0 0, .shutdown, .checkStop 0,
      .closeConn 0, .acceptConn 1 1, .resume 0] = .fatal := rfl

/-- a run with two listeners, a loop and a connection in which `Shutdown` returns -/
example : ∃ p, Proc.initial.execAll [.startLoop 0, .startListener 0, .startListener 1, .checkStop 0, .checkStop 1, .acceptConn 0 0,
      .fire 0, .shutdown, .acceptError 1, .checkStop 0, .finish 0, .leave 0, .closeConn 0, .resume 0, .checkStop 1, .return_] = .ok p ∧
    p.main = .returned := ⟨_, rfl, rfl⟩

end Coniks.Props
