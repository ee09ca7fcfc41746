import Verif.Proofs.Pid
/-
C80: the file that `coniksserver run --pid` writes.
-/
namespace Coniks.Props
open Coniks Spec Json ListenProofs PidProofs

/-- C80: what the file holds after `writePID` without an error: it names the process exactly if what was there before is not longer than the number. -/
theorem C80_written_iff (old : Option Bytes) (pid : Nat) (hpid : 0 < pid) :
    Names (writePID old pid .none) pid ↔ ∀ s, old = some s → s.length ≤ (decNat pid).length := by
  unfold writePID
  rw [names_overwrite hpid]
  cases old with
  | none => exact iff_of_true (Nat.zero_le _) (fun _ h => nomatch h)
  | some s => exact ⟨fun h t ht => by injection ht with ht; rw [← ht]; exact h, fun h => h s rfl⟩

/-- C80 (exact; the property is refuted): take any history of a directory in which there was no PID file, with a run `--pid` of process `pid` at some
moment and none after it. The file names `pid` exactly if no run `--pid` before had a number with more digits. -/
theorem C80_history_partial (M : Machine) (o : Os) (evs₁ evs₂ : List BoxEv) (pid : Nat) (conf : Option (List AddressToml)) (hpid : 0 < pid)
    (h₁ : ∀ fl p f c, .run fl p f c ∈ evs₁ → 0 < p ∧ f = .none) (h₂ : ∀ e ∈ evs₂, Silent e) :
    Names ((Box.mk o none).run M (evs₁ ++ .run true pid .none conf :: evs₂)).pidFile pid ↔
      ∀ q f c, .run true q f c ∈ evs₁ → NoLonger q pid := by
  rw [box_run_append, show BoxEv.run true pid .none conf :: evs₂ = [BoxEv.run true pid .none conf] ++ evs₂ from rfl, box_run_append, silent_run M evs₂ _ h₂]
  have hist := history_file M evs₁ (Box.mk o none) 0 ⟨rfl, fun x hx => nomatch hx⟩ h₁ (decNat pid).length (Nat.zero_le _)
  refine (names_overwrite hpid (old := ((Box.mk o none).run M evs₁).pidFile.getD [])).trans (hist.1.trans ?_)
  exact ⟨fun h q f c hm => (noLonger_iff (h₁ _ _ _ _ hm).1 hpid).2 (h q f c hm), fun h q f c hm => (noLonger_iff (h₁ _ _ _ _ hm).1 hpid).1 (h q f c hm)⟩

/-- C80 (counterexample): otherwise — after a reboot, or when the kernel has started to count again — the file holds digits that stand for a number at
least ten times as large: whoever signals the process that the file names does not reach the server, and may reach another process. -/
theorem C80_history_counterexample (M : Machine) (o : Os) (evs₁ evs₂ : List BoxEv) (pid : Nat) (conf : Option (List AddressToml)) (hpid : 0 < pid)
    (h₁ : ∀ fl p f c, .run fl p f c ∈ evs₁ → 0 < p ∧ f = .none) (h₂ : ∀ e ∈ evs₂, Silent e)
    (q : Nat) (f : WriteFault) (c : Option (List AddressToml)) (hq : .run true q f c ∈ evs₁) (hlong : ¬ NoLonger q pid) :
    ∃ n, Names ((Box.mk o none).run M (evs₁ ++ .run true pid .none conf :: evs₂)).pidFile n ∧ 10 * pid ≤ n := by
  rw [box_run_append, show BoxEv.run true pid .none conf :: evs₂ = [BoxEv.run true pid .none conf] ++ evs₂ from rfl, box_run_append, silent_run M evs₂ _ h₂]
  have hist := history_file M evs₁ (Box.mk o none) 0 ⟨rfl, fun x hx => nomatch hx⟩ h₁ (decNat pid).length (Nat.zero_le _)
  have hlt : (decNat pid).length < (((Box.mk o none).run M evs₁).pidFile.getD []).length := by
    refine Nat.lt_of_not_le fun hle => hlong ?_
    exact (noLonger_iff (h₁ _ _ _ _ hq).1 hpid).2 (hist.1.1 hle q f c hq)
  obtain ⟨r, h1, h2, h3, h4⟩ := overwrite_long hpid hlt
  refine ⟨_, ⟨_, rfl, ?_, rfl⟩, ?_⟩
  · refine ⟨?_, ?_⟩
    · show overwrite _ _ ≠ []
      rw [h2]; simp [h1]
    · intro x hx
      rcases List.mem_append.1 (h2 ▸ hx : x ∈ decNat pid ++ r) with hx | hx
      · exact (decNat_digits pid).1.2 x hx
      · exact hist.2 x (h3 x hx)
  · show 10 * pid ≤ decimal (overwrite _ _)
    rw [h2]; exact h4

/-- C80 (counterexample): the file is written before anything else. While server `pid` runs, an attempt to run another one with `--pid` in the same
directory that fails — the configuration cannot be read, or an address is in use — leaves a file
that names the process `pid'` of the failed attempt, which is not running; the server still runs, with the same sockets. -/
theorem C80_failed_run_counterexample (M : Machine) (b : Box) (pid pid' : Nat) (conf : Option (List AddressToml)) (hpid : 0 < pid) (hpid' : 0 < pid') (hne : pid' ≠ pid)
    (hold : b.pidFile = some (decNat pid)) (hlen : NoLonger pid pid') (hi : Idle b.os pid') (hi' : ¬ Idle b.os pid)
    (hfail : ∀ addrs, conf = some addrs → (b.os.start M pid' addrs).2 = false) :
    Names b.pidFile pid ∧ Names (b.step M (.run true pid' .none conf)).pidFile pid' ∧ ¬ Names (b.step M (.run true pid' .none conf)).pidFile pid ∧
      (b.step M (.run true pid' .none conf)).os.socks = b.os.socks ∧ Idle (b.step M (.run true pid' .none conf)).os pid' ∧
      ¬ Idle (b.step M (.run true pid' .none conf)).os pid := by
  have hsocks : (b.step M (.run true pid' .none conf)).os.socks = b.os.socks := by
    cases conf with
    | none => rfl
    | some addrs =>
      have hany : (b.os.socks.any fun x => x.1.pid = pid') = false := by
        rw [List.any_eq_false]
        intro x hx
        simp [hi x hx]
      show (b.os.step M (.start pid' addrs)).socks = b.os.socks
      show (if b.os.socks.any fun x => x.1.pid = pid' then b.os else (b.os.start M pid' addrs).1).socks = b.os.socks
      rw [if_neg (by simp [hany])]
      obtain ⟨k, a, h1, h2, h3, h4⟩ := start_fail (hfail addrs rfl)
      obtain ⟨bs, g1, g2, g3, g4, g5⟩ := start_ok h2
      rw [h4, g5]
      exact addAll_kill pid' _ b.os hi
  have hnew : Names (b.step M (.run true pid' .none conf)).pidFile pid' := by
    show Names (writePID b.pidFile pid' .none) pid'
    refine (C80_written_iff _ _ hpid').2 fun s hs => ?_
    rw [hold] at hs
    injection hs with hs
    rw [← hs]
    exact (noLonger_iff hpid hpid').1 hlen
  refine ⟨⟨_, hold, decNat_digits pid⟩, hnew, ?_, hsocks, ?_, ?_⟩
  · rintro ⟨s, hs, _, hv⟩
    obtain ⟨s', hs', _, hv'⟩ := hnew
    rw [hs] at hs'
    injection hs' with hs'
    subst hs'
    omega
  · intro x hx; rw [hsocks] at hx; exact hi x hx
  · intro h; exact hi' fun x hx => h x (by rw [hsocks]; exact hx)

/-- C80: `run` without `--pid`, the end of a process, and everything else that happens leaves the file as it is: it is not removed when the server
stops. -/
theorem C80_stays (M : Machine) (b : Box) (evs : List BoxEv) (h : ∀ e ∈ evs, Silent e) : (b.run M evs).pidFile = b.pidFile := silent_run M evs b h

/-! ### Samples -/

/-- `C80_history_partial`: 900, then 1234 in the same directory: the file names 1234. -/
example (M : Machine) (o : Os) : Names ((Box.mk o none).run M ([.run true 900 .none none] ++ .run true 1234 .none none :: [.other (.kill 1234)])).pidFile 1234 := by
  refine (C80_history_partial M o [.run true 900 .none none] [.other (.kill 1234)] 1234 none (by omega) ?_ ?_).2 ?_
  · intro fl p f c h
    have := List.mem_singleton.1 h
    injection this with _ h1 h2 _
    exact ⟨by omega, h2⟩
  · intro e he; rw [List.mem_singleton.1 he]; exact trivial
  · intro q f c h
    have := List.mem_singleton.1 h
    injection this with _ h1 _ _
    subst h1
    intro k hk
    omega

/-- `C80_history_counterexample`: 12345, and 99 after a reboot: the file says 99345. -/
example (M : Machine) (o : Os) : ((Box.mk o none).run M [.run true 12345 .none none, .run true 99 .none none]).pidFile = some (ascii "99345") ∧
    ∃ n, Names ((Box.mk o none).run M ([.run true 12345 .none none] ++ .run true 99 .none none :: [])).pidFile n ∧ 10 * 99 ≤ n := by
  refine ⟨by show some (overwrite (overwrite [] (decNat 12345)) (decNat 99)) = _; decide +kernel, ?_⟩
  refine C80_history_counterexample M o [.run true 12345 .none none] [] 99 none (by omega) ?_ (fun _ h => nomatch h) 12345 .none none (.head _) ?_
  · intro fl p f c h
    have := List.mem_singleton.1 h
    injection this with _ h1 h2 _
    exact ⟨by omega, h2⟩
  · intro h
    have := h 2 (by decide)
    omega

/-- `C80_failed_run_counterexample`: a server that listens on one socket, and an attempt with an unreadable configuration -/
example (M : Machine) : Names ((Box.mk ⟨fun _ => none, [(⟨0, 500, 0⟩, .tcp ⟨none, 3000⟩)], 1⟩ (some (decNat 500))).step M (.run true 501 .none none)).pidFile 501 := by
  refine (C80_failed_run_counterexample M _ 500 501 none (by omega) (by omega) (by omega) rfl ?_ ?_ ?_ (fun _ h => nomatch h)).2.1
  · intro k hk; omega
  · intro x hx; rw [List.mem_singleton.1 hx]; decide
  · intro h; exact h _ (.head _) rfl

end Coniks.Props
