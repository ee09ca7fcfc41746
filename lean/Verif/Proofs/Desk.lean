import Verif.Spec.Desk
import Verif.Props.BotRun
import Verif.Props.CliExact
import Verif.Proofs.CliSafe
/-
Proofs for C89: one client program inside a history of a machine.
-/
namespace Coniks
open Spec Json Props

/-- what a connection does to the directory -/
theorem accept_effect {C : Crypto} {perms : Nat → Int → Bool} {addr : Nat} {rnd : Option Bytes} {c : Conn} {d d' : Directory} {r : Option Response}
    (h : acceptClient C goJson perms rnd d addr c = some (d', r)) :
    d' = d ∨ ∃ req resp buf, c.read = some buf ∧ unmarshalRequest goJson buf = some ⟨RegistrationType, .registration req⟩ ∧
      d.register C rnd req = some (d', resp) := by
  by_cases hs : d' = d
  · exact .inl hs
  · right
    unfold acceptClient at h
    cases hsc : screen goJson perms addr c with
    | inr r => rw [hsc] at h; cases h; exact absurd rfl hs
    | inl req =>
      rw [hsc] at h
      obtain ⟨⟨d2, r2⟩, hx, e⟩ := Option.map_eq_some_iff.mp h
      cases e
      have hread : ∃ buf, c.read = some buf ∧ unmarshalRequest goJson buf = some req := by
        unfold screen at hsc
        split at hsc
        · cases hsc
        · rename_i buf hb
          split at hsc
          · cases hsc
          · rename_i q hq
            split at hsc
            · cases hsc
            · cases hsc; exact ⟨buf, hb, hq⟩
      obtain ⟨buf, hb, hq⟩ := hread
      by_cases h0 : req.type = 0 ∧ ∃ m, req.payload = .registration m
      · obtain ⟨h0, m', hm'⟩ := h0
        obtain ⟨t, p⟩ := req
        simp only at h0 hm'
        subst h0 hm'
        rw [handle_reg] at hx
        exact ⟨m', r2, buf, hb, hq, hx⟩
      · refine absurd (handle_same_dir (r := r2) hx ?_) hs
        by_cases ht : req.type = 0
        · exact .inr fun m hm => h0 ⟨ht, m, hm⟩
        · exact .inl ht

/-- the events of the directory that stand for one event of the machine -/
def Stands (C : Crypto) (X : Text) (u pid : Nat) (e : DeskEv) (d d' : Directory) (nes : List NetEvent) : Prop :=
  (∀ evs evs', Aligned X u pid evs evs' → Aligned X u pid (e :: evs) (nes ++ evs')) ∧
  ((nes = [] ∧ d' = d) ∨ ∃ op r, nes = [.dir op] ∧ d.step C op = some (d', r))

theorem stands_quiet (C : Crypto) (X : Text) {u pid : Nat} {e : DeskEv} (d : Directory) (h : ¬ Concerns u pid e) : Stands C X u pid e d d [] :=
  ⟨fun _ _ a => .other h a, .inl ⟨rfl, rfl⟩⟩

theorem stands_asked {C : Crypto} {X : Text} {u pid : Nat} {e : DeskEv} {d d' : Directory} {rnd : Option Bytes} {req : RegistrationRequest} {resp : Response}
    (h : AsksElsewhere X u rnd req e) (hr : d.register C rnd req = some (d', resp)) : Stands C X u pid e d d' [.dir (.register rnd req)] :=
  ⟨fun _ _ a => .asked h a, .inr ⟨_, some resp, rfl, by simp only [Directory.step, hr, Option.map_some]⟩⟩

/-- an event of the machine -/
theorem host_effect (C : Crypto) (X : Text) (M : Machine) (cwd : Place) (c : TwitterConfig) (u pid : Nat) (addrs : List AddressToml) (e : HostEv)
    (h h' : Host) (d : Directory) (hd : h.server pid = some ⟨d, addrs⟩) (hsp : SparesProc pid e) (hs : h.step C X M cwd c e = some h') :
    ∃ d' nes, h'.server pid = some ⟨d', addrs⟩ ∧ Stands C X u pid (.host e) d d' nes := by
  have other : ∀ (g : Host) (q : Nat) (r : Option Running), q ≠ pid → (g.set q r).server pid = g.server pid :=
    fun g q r hq => if_neg (fun e => hq e.symm)
  cases e with
  | run q k r₁ r₂ =>
    refine ⟨d, [], ?_, stands_quiet C X d (fun h => h)⟩
    simp only [Host.step] at hs
    split at hs
    · cases hs; exact hd
    · split at hs
      · cases hs; exact hd
      · cases hs; exact (other _ q _ hsp).trans hd
  | interrupt q => cases hs; exact ⟨d, [], (other _ q _ hsp).trans hd, stands_quiet C X d (fun h => h)⟩
  | kill q => cases hs; exact ⟨d, [], (other _ q _ hsp).trans hd, stands_quiet C X d (fun h => h)⟩
  | remove p => cases hs; exact ⟨d, [], hd, stands_quiet C X d (fun h => h)⟩
  | create p => cases hs; exact ⟨d, [], hd, stands_quiet C X d (fun h => h)⟩
  | epoch q =>
    cases hs
    by_cases hq : q = pid
    · subst hq
      refine ⟨d.update C, [.dir .update], ?_, fun _ _ a => .epoch a, .inr ⟨.update, none, rfl, rfl⟩⟩
      show (if q = q then _ else _) = _
      rw [if_pos rfl, hd]; rfl
    · exact ⟨d, [], (other _ q _ hq).trans hd, stands_quiet C X d hq⟩
  | policies q t =>
    cases hs
    by_cases hq : q = pid
    · subst hq
      refine ⟨d.setPolicies t, [.dir (.setPolicies t)], ?_, fun _ _ a => .policies a, .inr ⟨.setPolicies t, none, rfl, rfl⟩⟩
      show (if q = q then _ else _) = _
      rw [if_pos rfl, hd]; rfl
    · exact ⟨d, [], (other _ q _ hq).trans hd, stands_quiet C X d hq⟩
  | conn address rnd k =>
    have quiet : h'.server pid = some ⟨d, addrs⟩ → ∃ d' nes, h'.server pid = some ⟨d', addrs⟩ ∧ Stands C X u pid (.host (.conn address rnd k)) d d' nes :=
      fun hq => ⟨d, [], hq, stands_quiet C X d (fun h => h)⟩
    simp only [Host.step] at hs
    split at hs
    · cases hs; exact quiet hd
    · rename_i s hdial
      split at hs
      · cases hs; exact quiet hd
      · rename_i r hr
        obtain ⟨⟨d1, resp⟩, hx, rfl⟩ := Option.map_eq_some_iff.mp hs
        by_cases hq : s.pid = pid
        · rw [hq, hd] at hr
          cases hr
          have hset : ∀ r : Option Running, (h.set s.pid r).server pid = r := fun r => if_pos hq.symm
          rcases accept_effect hx with rfl | ⟨req, resp', buf, h1, h2, h3⟩
          · exact quiet (hset _)
          · exact ⟨d1, _, hset _, stands_asked (e := .host (.conn address rnd k)) ⟨rfl, buf, h1, h2⟩ h3⟩
        · exact quiet ((other _ _ _ hq).trans hd)
  | dm m rnd link sent =>
    have quiet : h'.server pid = some ⟨d, addrs⟩ → ∃ d' nes, h'.server pid = some ⟨d', addrs⟩ ∧ Stands C X u pid (.host (.dm m rnd link sent)) d d' nes :=
      fun hq => ⟨d, [], hq, stands_quiet C X d (fun h => h)⟩
    simp only [Host.step] at hs
    obtain ⟨⟨g, out⟩, hx, rfl⟩ := Option.map_eq_some_iff.mp hs
    unfold Host.onDM at hx
    split at hx
    · cases hx; exact quiet hd
    · rename_i s hdial
      split at hx
      · cases hx; exact quiet hd
      · rename_i r hr
        obtain ⟨⟨d1, out1⟩, hy, e⟩ := Option.map_eq_some_iff.mp hx
        cases e
        by_cases hq : s.pid = pid
        · rw [hq, hd] at hr
          cases hr
          have hset : ∀ r : Option Running, (h.set s.pid r).server pid = r := fun r => if_pos hq.symm
          rcases onDM_ops C X _ _ rnd link sent d d1 m _ hy with rfl | ⟨req, resp', h1, _, h3⟩
          · exact quiet (hset _)
          · exact ⟨d1, _, hset _, stands_asked (e := .host (.dm m rnd link sent)) ⟨rfl, h1⟩ h3⟩
        · exact quiet ((other _ _ _ hq).trans hd)

/-! ### commands see of the network only the client's own addresses -/

theorem registerOver_net (C : Crypto) {N N' : Net} {conf : CliConf} (h1 : N.scheme conf.reg = N'.scheme conf.reg)
    (h2 : N.listener conf.reg = N'.listener conf.reg) (perms : Nat → Int → Bool) (rnd : Option Bytes) (T : Transfer) (d : Directory) (cc : Client) (n k : Bytes) :
    cc.cliRegisterOver C N conf perms rnd T d n k = cc.cliRegisterOver C N' conf perms rnd T d n k := by
  unfold Client.cliRegisterOver Net.usable
  rw [h1, h2]

theorem lookupOver_net (C : Crypto) {N N' : Net} {conf : CliConf} (h1 : N.scheme conf.address = N'.scheme conf.address)
    (h2 : N.listener conf.address = N'.listener conf.address) (perms : Nat → Int → Bool) (T : Transfer) (d : Directory) (cc : Client) (n : Bytes) :
    cc.cliLookupOver C N conf perms T d n = cc.cliLookupOver C N' conf perms T d n := by
  unfold Client.cliLookupOver Net.usable
  rw [h1, h2]

theorem registerOver_dir {C : Crypto} {N : Net} {conf : CliConf} {perms : Nat → Int → Bool} {rnd : Option Bytes} {T : Transfer} {d d' : Directory}
    {cc cc' : Client} {n k text : Bytes} (i : StdDir d) (hn : Utf8 n) (h : cc.cliRegisterOver C N conf perms rnd T d n k = some (d', cc', text)) :
    d' = d ∨ ∃ resp, d.register C rnd ⟨n, k⟩ = some (d', resp) := by
  rcases registerOver_cases N conf perms rnd T i cc k hn with e | ⟨_, d2, text2, e, hd⟩
  · exact cliRegister_dir i hn (e.symm.trans h)
  · rw [e] at h; cases h; exact hd

theorem lookupOver_dir {C : Crypto} {N : Net} {conf : CliConf} {perms : Nat → Int → Bool} {T : Transfer} {d d' : Directory}
    {cc cc' : Client} {n text : Bytes} (i : StdDir d) (h : cc.cliLookupOver C N conf perms T d n = some (d', cc', text)) : d' = d := by
  rcases lookupOver_cases N conf perms T i cc n with e | ⟨_, text2, e⟩
  · exact cliLookup_same i (e.symm.trans h)
  · rw [e] at h; cases h; rfl

/-- the directory of the process has come about in the normal way -/
def Grown (C : Crypto) (t0 : UInt64) (sk vk : Bytes) (size : Nat) (r₁ r₂ : Bytes) (d : Directory) : Prop :=
  ∃ ops log, dirAfter C t0 sk vk size r₁ r₂ ops = some (d, log)

theorem Grown.step {C : Crypto} {t0 : UInt64} {sk vk : Bytes} {size : Nat} {r₁ r₂ : Bytes} {d d' : Directory} (g : Grown C t0 sk vk size r₁ r₂ d)
    {op : DirOp} {r : Option Response} (h : d.step C op = some (d', r)) : Grown C t0 sk vk size r₁ r₂ d' := by
  obtain ⟨ops, log, hg⟩ := g
  obtain ⟨log', h'⟩ := dirAfter_step hg h
  exact ⟨_, log', h'⟩

theorem Grown.std {C : Crypto} {t0 : UInt64} {sk vk : Bytes} {size : Nat} {r₁ r₂ : Bytes} {d : Directory} (g : Grown C t0 sk vk size r₁ r₂ d) : StdDir d := by
  obtain ⟨ops, log, hg⟩ := g
  exact after_std hg

/-- terminal `u` goes from `t` to `t'` as the client of a directory that goes from `d` to `d'`, with these events -/
def Moves (C : Crypto) (N : Net) (conf : CliConf) (perms : Nat → Int → Bool) (d d' : Directory) (t t' : Terminal) (nes : List NetEvent) : Prop :=
  (t.over = true → t' = t) ∧
  (t.over = false → ∃ new, t'.printed = t.printed ++ new ∧
    ((t'.over = false ∧ ∀ tail, replOver C N conf perms d t.client t.ts (nes ++ tail) =
        (replOver C N conf perms d' t'.client t'.ts tail).map fun z => (z.1, z.2.1, new ++ z.2.2)) ∨
      (t'.over = true ∧ ∀ tail, replOver C N conf perms d t.client t.ts (nes ++ tail) = some (d, t'.client, new))))

theorem moves_dir {C : Crypto} {X : Text} (N : Net) (conf : CliConf) (perms : Nat → Int → Bool) {u pid : Nat} {e : DeskEv} {d d' : Directory} (t : Terminal)
    {nes : List NetEvent} (h : Stands C X u pid e d d' nes) : Moves C N conf perms d d' t t nes := by
  refine ⟨fun _ => rfl, fun ho => ⟨[], (List.append_nil _).symm, .inl ⟨ho, fun tail => ?_⟩⟩⟩
  rcases h.2 with ⟨rfl, rfl⟩ | ⟨op, r, rfl, hs⟩
  · simp
  · simp [replOver, hs]

/-- one event on the machine, seen from terminal `u` and from the server of process `pid` -/
theorem desk_step (C : Crypto) (X : Text) (M : Machine) (cwd : Place) (c : TwitterConfig) (u pid : Nat) (addrs : List AddressToml) (conf : CliConf) (N : Net)
    {t0 : UInt64} {sk vk : Bytes} {size : Nat} {r₁ r₂ : Bytes}
    (e : DeskEv) (D D' : Desk) (d : Directory) (g : Grown C t0 sk vk size r₁ r₂ d) (hd : D.host.server pid = some ⟨d, addrs⟩)
    (hsp : ∀ e', e = .host e' → SparesProc pid e') (hno : ∀ k debug, e ≠ .opened u k debug) (hconf : (D.terms u).conf = conf)
    (hreg : ∃ s, D.host.os.dial M conf.reg = some s ∧ s.pid = pid ∧ N.listener conf.reg = s.ptr)
    (hlook : ∃ s, D.host.os.dial M conf.address = some s ∧ s.pid = pid ∧ N.listener conf.address = s.ptr)
    (hN : N.scheme = fun a => (parseUrl a).map Url.scheme)
    (hs : D.step C X M cwd c e = some D') :
    ∃ d' nes, D'.host.server pid = some ⟨d', addrs⟩ ∧ Grown C t0 sk vk size r₁ r₂ d' ∧ (D'.terms u).conf = conf ∧
      (∀ evs evs', Aligned X u pid evs evs' → Aligned X u pid (e :: evs) (nes ++ evs')) ∧
      Moves C N conf (permsMap (addrs.map fun a => ⟨a.ptr, a.allowRegistration⟩)) d d' (D.terms u) (D'.terms u) nes := by
  have grow : ∀ {d' nes}, Stands C X u pid e d d' nes → Grown C t0 sk vk size r₁ r₂ d' := by
    intro d' nes h
    rcases h.2 with ⟨_, rfl⟩ | ⟨op, r, _, h⟩
    · exact g
    · exact g.step h
  have away : ∀ {d' nes}, D'.host.server pid = some ⟨d', addrs⟩ → D'.terms u = D.terms u → Stands C X u pid e d d' nes →
      ∃ d' nes, D'.host.server pid = some ⟨d', addrs⟩ ∧ Grown C t0 sk vk size r₁ r₂ d' ∧ (D'.terms u).conf = conf ∧
        (∀ evs evs', Aligned X u pid evs evs' → Aligned X u pid (e :: evs) (nes ++ evs')) ∧
        Moves C N conf (permsMap (addrs.map fun a => ⟨a.ptr, a.allowRegistration⟩)) d d' (D.terms u) (D'.terms u) nes := by
    intro d' nes h1 h2 h3
    exact ⟨d', nes, h1, grow h3, by rw [h2]; exact hconf, h3.1, by rw [h2]; exact moves_dir N conf _ _ h3⟩
  cases e with
  | host e =>
    simp only [Desk.step] at hs
    obtain ⟨h', hx, rfl⟩ := Option.map_eq_some_iff.mp hs
    obtain ⟨d', nes, h1, h2⟩ := host_effect C X M cwd c u pid addrs e D.host h' d hd (hsp e rfl) hx
    exact away h1 rfl h2
  | opened v k debug =>
    have hv : v ≠ u := fun h => hno k debug (h ▸ rfl)
    simp only [Desk.step, Desk.open] at hs
    obtain ⟨cc, _, rfl⟩ := Option.map_eq_some_iff.mp hs
    exact away (d' := d) (nes := []) hd (if_neg (fun e => hv e.symm)) (stands_quiet C X d hv)
  | ended v err =>
    simp only [Desk.step, Option.some.injEq] at hs
    by_cases hv : v = u
    · subst hv
      by_cases ho : (D.terms v).over = true
      · rw [if_pos ho] at hs
        subst hs
        exact ⟨d, [.ended err], hd, g, hconf, fun _ _ a => .ended a, fun _ => rfl, fun h => by rw [ho] at h; cases h⟩
      · rw [if_neg ho] at hs
        subst hs
        have ht : (D.put v { D.terms v with over := true, printed := (D.terms v).printed ++ [((D.terms v).ts, err)] }).terms v =
          { D.terms v with over := true, printed := (D.terms v).printed ++ [((D.terms v).ts, err)] } := if_pos rfl
        refine ⟨d, [.ended err], hd, g, by rw [ht]; exact hconf, fun _ _ a => .ended a, ?_⟩
        rw [ht]
        exact ⟨fun h => absurd h ho, fun _ => ⟨_, rfl, .inr ⟨rfl, fun tail => rfl⟩⟩⟩
    · refine away (d' := d) (nes := []) ?_ ?_ (stands_quiet C X d hv)
      · rw [← hs]; split <;> exact hd
      · rw [← hs]; split
        · rfl
        · exact if_neg (fun e => hv e.symm)
  | line v rnd l T refused =>
    simp only [Desk.step, Desk.type] at hs
    by_cases ho : (D.terms v).over = true
    · rw [if_pos ho] at hs
      cases hs
      by_cases hv : v = u
      · subst hv
        exact ⟨d, [.line rnd l T], hd, g, hconf, fun _ _ a => .line a, fun _ => rfl, fun h => by rw [ho] at h; cases h⟩
      · exact away (d' := d) (nes := []) hd rfl (stands_quiet C X d hv)
    · rw [if_neg ho] at hs
      have hof : (D.terms v).over = false := by simpa using ho
      by_cases hv : v = u
      · subst hv
        have put : ∀ (D2 : Desk) t, (D2.put v t).terms v = t := fun D2 t => if_pos rfl
        have set : ∀ r : Option Running, (D.host.set pid r).server pid = r := fun r => if_pos rfl
        have al : ∀ evs evs', Aligned X v pid evs evs' → Aligned X v pid (.line v rnd l T refused :: evs) ([.line rnd l T] ++ evs') := fun _ _ a => .line a
        cases hc : command (fields l) with
        | register n k =>
          rw [hc] at hs
          obtain ⟨s, hs1, hs2, hs3⟩ := hreg
          have ha : D.host.answering M (D.terms v).conf.reg = some (s, ⟨d, addrs⟩) := by
            unfold Host.answering; rw [hconf, hs1, Option.bind_some, hs2, hd]; rfl
          simp only [ha] at hs
          obtain ⟨⟨d', cc', text⟩, hx, rfl⟩ := Option.map_eq_some_iff.mp hs
          rw [hconf] at hx
          have hx' := hx
          rw [registerOver_net C (N' := N) (by rw [hN]; rfl) (by rw [hs3]; show (match D.host.os.dial M conf.reg with | some s => s.ptr | none => _) = _; rw [hs1])] at hx'
          have hg : Grown C t0 sk vk size r₁ r₂ d' := by
            rcases registerOver_dir g.std (command_register hc).1 hx' with rfl | ⟨resp, hr⟩
            · exact g
            · exact g.step (op := .register rnd ⟨n, k⟩) (r := some resp) (by simp only [Directory.step, hr, Option.map_some])
          refine ⟨d', [.line rnd l T], by rw [hs2]; exact set _, hg, by rw [put]; exact hconf, al, ?_⟩
          rw [put]
          refine ⟨fun h => absurd h ho, fun _ => ⟨_, rfl, .inl ⟨hof, fun tail => ?_⟩⟩⟩
          simp only [List.singleton_append, replOver, hc, hx', Option.bind_some]
        | lookup n =>
          rw [hc] at hs
          obtain ⟨s, hs1, hs2, hs3⟩ := hlook
          have ha : D.host.answering M (D.terms v).conf.address = some (s, ⟨d, addrs⟩) := by
            unfold Host.answering; rw [hconf, hs1, Option.bind_some, hs2, hd]; rfl
          simp only [ha] at hs
          obtain ⟨⟨d', cc', text⟩, hx, rfl⟩ := Option.map_eq_some_iff.mp hs
          rw [hconf] at hx
          have hx' := hx
          rw [lookupOver_net C (N' := N) (by rw [hN]; rfl) (by rw [hs3]; show (match D.host.os.dial M conf.address with | some s => s.ptr | none => _) = _; rw [hs1])] at hx'
          have hdd := lookupOver_dir g.std hx'
          subst hdd
          refine ⟨d', [.line rnd l T], by rw [hs2]; exact set _, g, by rw [put]; exact hconf, al, ?_⟩
          rw [put]
          refine ⟨fun h => absurd h ho, fun _ => ⟨_, rfl, .inl ⟨hof, fun tail => ?_⟩⟩⟩
          simp only [List.singleton_append, replOver, hc, hx', Option.bind_some]
        | exit =>
          rw [hc] at hs
          cases hs
          refine ⟨d, [.line rnd l T], hd, g, by rw [put]; exact hconf, al, ?_⟩
          rw [put]
          refine ⟨fun h => absurd h ho, fun _ => ⟨_, rfl, .inr ⟨rfl, fun tail => ?_⟩⟩⟩
          simp only [List.singleton_append, replOver, hc]
        | _ =>
          rw [hc] at hs
          cases hs
          refine ⟨d, [.line rnd l T], hd, g, by rw [put]; exact hconf, al, ?_⟩
          rw [put]
          refine ⟨fun h => absurd h ho, fun _ => ⟨_, rfl, .inl ⟨hof, fun tail => ?_⟩⟩⟩
          simp only [List.singleton_append, replOver, hc]
      · have put : ∀ (D2 : Desk) t, (D2.put v t).terms u = D2.terms u := fun D2 t => if_neg (fun e => hv e.symm)
        have quiet : D'.host.server pid = some ⟨d, addrs⟩ → D'.terms u = D.terms u → _ := fun h1 h2 => away (d' := d) (nes := []) h1 h2 (stands_quiet C X d hv)
        have oth : ∀ (q : Nat) (r : Option Running), q ≠ pid → (D.host.set q r).server pid = D.host.server pid := fun q r hq => if_neg (fun e => hq e.symm)
        have set : ∀ (q : Nat) (r : Option Running), q = pid → (D.host.set q r).server pid = r := fun q r hq => if_pos hq.symm
        cases hc : command (fields l) with
        | register n k =>
          rw [hc] at hs
          dsimp only at hs
          split at hs
          · rename_i s r ha
            obtain ⟨⟨d', cc', text⟩, hx, rfl⟩ := Option.map_eq_some_iff.mp hs
            unfold Host.answering at ha
            obtain ⟨s', hdial, ha⟩ := Option.bind_eq_some_iff.mp ha
            obtain ⟨r', hr', he⟩ := Option.map_eq_some_iff.mp ha
            cases he
            by_cases hq : s.pid = pid
            · rw [hq, hd] at hr'
              cases hr'
              rcases registerOver_dir g.std (command_register hc).1 hx with rfl | ⟨resp, hr⟩
              · exact quiet (set _ _ hq) (put _ _)
              · exact away (set _ _ hq) (put _ _) (stands_asked (e := .line v rnd l T refused) ⟨rfl, hv, hc⟩ hr)
            · exact quiet ((oth _ _ hq).trans hd) (put _ _)
          · obtain ⟨x, _, rfl⟩ := Option.map_eq_some_iff.mp hs
            exact quiet hd (put _ _)
        | lookup n =>
          rw [hc] at hs
          dsimp only at hs
          split at hs
          · rename_i s r ha
            obtain ⟨⟨d', cc', text⟩, hx, rfl⟩ := Option.map_eq_some_iff.mp hs
            unfold Host.answering at ha
            obtain ⟨s', hdial, ha⟩ := Option.bind_eq_some_iff.mp ha
            obtain ⟨r', hr', he⟩ := Option.map_eq_some_iff.mp ha
            cases he
            by_cases hq : s.pid = pid
            · rw [hq, hd] at hr'
              cases hr'
              have hdd := lookupOver_dir g.std hx
              subst hdd
              exact quiet (set _ _ hq) (put _ _)
            · exact quiet ((oth _ _ hq).trans hd) (put _ _)
          · obtain ⟨x, _, rfl⟩ := Option.map_eq_some_iff.mp hs
            exact quiet hd (put _ _)
        | exit => rw [hc] at hs; cases hs; exact quiet hd (put _ _)
        | _ => rw [hc] at hs; cases hs; exact quiet hd (put _ _)

/-! ### histories -/

theorem desk_put_same (D : Desk) (u : Nat) (t : Terminal) : (D.put u t).terms u = t := if_pos rfl


theorem desk_run_append (C : Crypto) (X : Text) (M : Machine) (cwd : Place) (c : TwitterConfig) : ∀ (es es' : List DeskEv) (D : Desk),
    D.run C X M cwd c (es ++ es') = (D.run C X M cwd c es).bind fun D' => D'.run C X M cwd c es'
  | [], _, _ => rfl
  | e :: es, es', D => by
    simp only [List.cons_append, Desk.run]
    cases D.step C X M cwd c e with
    | none => rfl
    | some D1 => exact desk_run_append C X M cwd c es es' D1

/-- only events of the machine change the operating system -/
theorem desk_step_os (C : Crypto) (X : Text) (M : Machine) (cwd : Place) (c : TwitterConfig) (D D' : Desk) (e : DeskEv)
    (hs : D.step C X M cwd c e = some D') : D'.host.os = D.host.os ∨
    ∃ e₀ e', e = .host e₀ ∧ D'.host.os = D.host.os.step M e' ∧ (∀ pid, SparesProc pid e₀ → Spares pid e') ∧ ∀ p, e₀ ≠ .remove p → Leaves p e' := by
  cases e with
  | host e =>
    obtain ⟨h', hx, rfl⟩ := Option.map_eq_some_iff.mp hs
    rcases host_step_os C X M cwd c D.host h' e hx with h | ⟨e', h⟩
    · exact .inl h
    · exact .inr ⟨e, e', rfl, h⟩
  | opened v k debug => simp only [Desk.step, Desk.open] at hs; obtain ⟨cc, _, rfl⟩ := Option.map_eq_some_iff.mp hs; exact .inl rfl
  | ended v err =>
    simp only [Desk.step, Option.some.injEq] at hs
    subst hs
    left
    split <;> rfl
  | line v rnd l T refused =>
    left
    simp only [Desk.step, Desk.type] at hs
    split at hs
    · cases hs; rfl
    · split at hs
      · split at hs
        · obtain ⟨y, _, rfl⟩ := Option.map_eq_some_iff.mp hs; rfl
        · obtain ⟨y, _, rfl⟩ := Option.map_eq_some_iff.mp hs; rfl
      · split at hs
        · obtain ⟨y, _, rfl⟩ := Option.map_eq_some_iff.mp hs; rfl
        · obtain ⟨y, _, rfl⟩ := Option.map_eq_some_iff.mp hs; rfl
      · cases hs; rfl
      · cases hs; rfl

theorem desk_run_os (C : Crypto) (X : Text) (M : Machine) (cwd : Place) (c : TwitterConfig) : ∀ (evs : List DeskEv) (D D' : Desk),
    D.run C X M cwd c evs = some D' → ∃ es, D'.host.os = D.host.os.run M es ∧
      (∀ pid, (∀ e, .host e ∈ evs → SparesProc pid e) → ∀ e ∈ es, Spares pid e) ∧ ∀ p, .host (.remove p) ∉ evs → ∀ e ∈ es, Leaves p e
  | [], D, D', hr => by
    cases hr
    exact ⟨[], rfl, fun _ _ _ h => (nomatch h), fun _ _ _ h => (nomatch h)⟩
  | e :: evs, D, D', hr => by
    simp only [Desk.run] at hr
    obtain ⟨D1, hs, hr⟩ := Option.bind_eq_some_iff.mp hr
    obtain ⟨es, h1, h2, h3⟩ := desk_run_os C X M cwd c evs D1 D' hr
    have h2' : ∀ pid, (∀ x, .host x ∈ e :: evs → SparesProc pid x) → ∀ x ∈ es, Spares pid x := fun pid h => h2 pid fun x hx => h x (.tail _ hx)
    have h3' : ∀ p, .host (.remove p) ∉ e :: evs → ∀ x ∈ es, Leaves p x := fun p h => h3 p fun hx => h (.tail _ hx)
    rcases desk_step_os C X M cwd c D D1 e hs with h | ⟨e₀, e', rfl, h, k1, k2⟩
    · exact ⟨es, by rw [h1, h], h2', h3'⟩
    · refine ⟨e' :: es, by rw [h1, h]; rfl, fun pid hh => ?_, fun p hh => ?_⟩
      · intro x hx
        rcases List.mem_cons.mp hx with rfl | hx
        · exact k1 pid (hh _ (.head _))
        · exact h2' pid hh x hx
      · intro x hx
        rcases List.mem_cons.mp hx with rfl | hx
        · exact k2 p (fun e => hh (e ▸ .head _))
        · exact h3' p hh x hx

/-- both addresses of a configuration reach process `pid` -/
def Reaches (M : Machine) (N : Net) (conf : CliConf) (pid : Nat) (o : Os) : Prop :=
  (∃ s, o.dial M conf.reg = some s ∧ s.pid = pid ∧ N.listener conf.reg = s.ptr) ∧
  ∃ s, o.dial M conf.address = some s ∧ s.pid = pid ∧ N.listener conf.address = s.ptr

theorem desk_follow (C : Crypto) (X : Text) (M : Machine) (cwd : Place) (c : TwitterConfig) (u pid : Nat) (addrs : List AddressToml) (conf : CliConf) (N : Net)
    {t0 : UInt64} {sk vk : Bytes} {size : Nat} {r₁ r₂ : Bytes} (hN : N.scheme = fun a => (parseUrl a).map Url.scheme) :
    ∀ (evs : List DeskEv) (D D' : Desk) (d : Directory), Grown C t0 sk vk size r₁ r₂ d → D.host.server pid = some ⟨d, addrs⟩ →
    (∀ e, .host e ∈ evs → SparesProc pid e) → (∀ k debug, .opened u k debug ∉ evs) → (D.terms u).conf = conf →
    (∀ pre suf D₁, evs = pre ++ suf → D.run C X M cwd c pre = some D₁ → Reaches M N conf pid D₁.host.os) →
    D.run C X M cwd c evs = some D' →
    ∃ d' evs', D'.host.server pid = some ⟨d', addrs⟩ ∧ Grown C t0 sk vk size r₁ r₂ d' ∧ Aligned X u pid evs evs' ∧
      ((D.terms u).over = true → D'.terms u = D.terms u) ∧
      ((D.terms u).over = false → ∃ d'' out, replOver C N conf (permsMap (addrs.map fun a => ⟨a.ptr, a.allowRegistration⟩)) d (D.terms u).client (D.terms u).ts evs' =
          some (d'', (D'.terms u).client, out) ∧ (D'.terms u).printed = (D.terms u).printed ++ out ∧ ((D'.terms u).over = false → d'' = d'))
  | [], D, D', d, g, hd, _, _, _, _, hr => by
    cases hr
    exact ⟨d, [], hd, g, .nil, fun _ => rfl, fun _ => ⟨d, [], rfl, (List.append_nil _).symm, fun _ => rfl⟩⟩
  | e :: evs, D, D', d, g, hd, hsp, hno, hconf, hR, hr => by
    simp only [Desk.run] at hr
    obtain ⟨D1, hs, hr⟩ := Option.bind_eq_some_iff.mp hr
    have R0 : Reaches M N conf pid D.host.os := hR [] (e :: evs) D rfl rfl
    obtain ⟨d1, nes, k1, k2, k3, k4, k5⟩ := desk_step C X M cwd c u pid addrs conf N e D D1 d g hd (fun e' h => hsp e' (h ▸ .head _))
      (fun k debug h => hno k debug (h ▸ .head _)) hconf R0.1 R0.2 hN hs
    obtain ⟨d', evs', m1, m2, m3, m4, m5⟩ := desk_follow C X M cwd c u pid addrs conf N hN evs D1 D' d1 k2 k1 (fun e' h => hsp e' (.tail _ h))
      (fun k debug h => hno k debug (.tail _ h)) k3
      (fun pre suf D₂ h h' => hR (e :: pre) suf D₂ (by rw [h]; rfl) (by simp only [Desk.run, hs, Option.bind_some]; exact h')) hr
    refine ⟨d', nes ++ evs', m1, m2, k4 _ _ m3, fun ho => ?_, fun ho => ?_⟩
    · have := k5.1 ho
      rw [m4 (by rw [this]; exact ho), this]
    · obtain ⟨new, p1, p2⟩ := k5.2 ho
      rcases p2 with ⟨o1, p2⟩ | ⟨o1, p2⟩
      · obtain ⟨d'', out, q1, q2, q3⟩ := m5 o1
        refine ⟨d'', new ++ out, ?_, by rw [q2, p1, List.append_assoc], q3⟩
        rw [p2, q1]; rfl
      · have := m4 o1
        rw [this]
        exact ⟨d, new, p2 _, p1, fun h => by rw [o1] at h; cases h⟩

theorem epochsOf_cons (pid : Nat) (e : DeskEv) (es : List DeskEv) : epochsOf pid (e :: es) = epochsOf pid [e] + epochsOf pid es := by
  cases e with
  | host e => cases e <;> simp [epochsOf, Nat.add_comm]
  | _ => simp [epochsOf]

/-- a session has the epochs of its server -/
theorem aligned_updates {X : Text} {u pid : Nat} {evs : List DeskEv} {evs' : List NetEvent} (h : Aligned X u pid evs evs') :
    netUpdates evs' = epochsOf pid evs := by
  induction h with
  | nil => rfl
  | line _ ih => exact ih
  | ended _ ih => exact ih
  | epoch _ ih => simp [netUpdates, epochsOf, ih]
  | policies _ ih => exact ih
  | @asked e rnd req evs evs' he _ ih =>
    rw [epochsOf_cons]
    have : epochsOf pid [e] = 0 := by
      cases e with
      | host e => cases e <;> first | rfl | exact he.elim
      | _ => rfl
    rw [this, Nat.zero_add]
    exact ih
  | @other e evs evs' he _ ih =>
    rw [epochsOf_cons]
    have : epochsOf pid [e] = 0 := by
      cases e with
      | host e =>
        cases e with
        | epoch q => simp only [epochsOf]; rw [if_neg (show ¬ q = pid from he)]
        | _ => rfl
      | _ => rfl
    rw [this, Nat.zero_add]
    exact ih

/-- ... with so many epochs -/
def GrownBy (C : Crypto) (t0 : UInt64) (sk vk : Bytes) (size : Nat) (r₁ r₂ : Bytes) (m : Nat) (d : Directory) : Prop :=
  ∃ ops log, dirAfter C t0 sk vk size r₁ r₂ ops = some (d, log) ∧ dirUpdates ops = m

theorem GrownBy.step {C : Crypto} {t0 : UInt64} {sk vk : Bytes} {size : Nat} {r₁ r₂ : Bytes} {m : Nat} {d d' : Directory}
    (g : GrownBy C t0 sk vk size r₁ r₂ m d) {op : DirOp} {r : Option Response} (h : d.step C op = some (d', r)) :
    GrownBy C t0 sk vk size r₁ r₂ (m + dirUpdates [op]) d' := by
  obtain ⟨ops, log, hg, hm⟩ := g
  obtain ⟨log', h'⟩ := dirAfter_step hg h
  exact ⟨_, log', h', by rw [dirUpdates_append, hm]⟩

theorem GrownBy.grown {C : Crypto} {t0 : UInt64} {sk vk : Bytes} {size : Nat} {r₁ r₂ : Bytes} {m : Nat} {d : Directory}
    (g : GrownBy C t0 sk vk size r₁ r₂ m d) : Grown C t0 sk vk size r₁ r₂ d := by
  obtain ⟨ops, log, hg, _⟩ := g
  exact ⟨ops, log, hg⟩

/-- a process that is spared keeps its directory, which grows in the normal way -/
theorem desk_step_grown (C : Crypto) (X : Text) (M : Machine) (cwd : Place) (c : TwitterConfig) (pid : Nat) (addrs : List AddressToml)
    {t0 : UInt64} {sk vk : Bytes} {size : Nat} {r₁ r₂ : Bytes} {m : Nat} (e : DeskEv) (D D' : Desk) (d : Directory) (g : GrownBy C t0 sk vk size r₁ r₂ m d)
    (hd : D.host.server pid = some ⟨d, addrs⟩) (hsp : ∀ e', e = .host e' → SparesProc pid e') (hs : D.step C X M cwd c e = some D') :
    ∃ d', D'.host.server pid = some ⟨d', addrs⟩ ∧ GrownBy C t0 sk vk size r₁ r₂ (m + epochsOf pid [e]) d' := by
  have oth : ∀ (q : Nat) (r : Option Running), q ≠ pid → (D.host.set q r).server pid = D.host.server pid := fun q r hq => if_neg (fun e => hq e.symm)
  have set : ∀ (q : Nat) (r : Option Running), q = pid → (D.host.set q r).server pid = r := fun q r hq => if_pos hq.symm
  cases e with
  | host e =>
    simp only [Desk.step] at hs
    obtain ⟨h', hx, rfl⟩ := Option.map_eq_some_iff.mp hs
    obtain ⟨d', nes, h1, h2⟩ := host_effect C X M cwd c 0 pid addrs e D.host h' d hd (hsp e rfl) hx
    refine ⟨d', h1, ?_⟩
    have hu := aligned_updates (h2.1 [] [] .nil)
    rcases h2.2 with ⟨rfl, rfl⟩ | ⟨op, r, rfl, h⟩
    · rw [← hu]; exact g
    · have e2 : dirUpdates [op] = epochsOf pid [.host e] := by
        rw [← hu]; cases op <;> rfl
      rw [← e2]; exact g.step h
  | opened v k debug =>
    simp only [Desk.step, Desk.open] at hs
    obtain ⟨cc, _, rfl⟩ := Option.map_eq_some_iff.mp hs
    exact ⟨d, hd, g⟩
  | ended v err =>
    simp only [Desk.step, Option.some.injEq] at hs
    refine ⟨d, ?_, g⟩
    rw [← hs]; split <;> exact hd
  | line v rnd l T refused =>
    simp only [Desk.step, Desk.type] at hs
    split at hs
    · cases hs; exact ⟨d, hd, g⟩
    · split at hs
      · rename_i n k hc
        split at hs
        · rename_i s r ha
          obtain ⟨⟨d', cc', text⟩, hx, rfl⟩ := Option.map_eq_some_iff.mp hs
          unfold Host.answering at ha
          obtain ⟨s', hdial, ha⟩ := Option.bind_eq_some_iff.mp ha
          obtain ⟨r', hr', he⟩ := Option.map_eq_some_iff.mp ha
          cases he
          by_cases hq : s.pid = pid
          · rw [hq, hd] at hr'
            cases hr'
            refine ⟨d', set _ _ hq, ?_⟩
            rcases registerOver_dir g.grown.std (command_register hc).1 hx with rfl | ⟨resp, hr⟩
            · exact g
            · exact g.step (op := .register rnd ⟨n, k⟩) (r := some resp) (by simp only [Directory.step, hr, Option.map_some])
          · exact ⟨d, (oth _ _ hq).trans hd, g⟩
        · obtain ⟨x, _, rfl⟩ := Option.map_eq_some_iff.mp hs
          exact ⟨d, hd, g⟩
      · split at hs
        · rename_i s r ha
          obtain ⟨⟨d', cc', text⟩, hx, rfl⟩ := Option.map_eq_some_iff.mp hs
          unfold Host.answering at ha
          obtain ⟨s', hdial, ha⟩ := Option.bind_eq_some_iff.mp ha
          obtain ⟨r', hr', he⟩ := Option.map_eq_some_iff.mp ha
          cases he
          by_cases hq : s.pid = pid
          · rw [hq, hd] at hr'
            cases hr'
            have hdd := lookupOver_dir g.grown.std hx
            subst hdd
            exact ⟨d', set _ _ hq, g⟩
          · exact ⟨d, (oth _ _ hq).trans hd, g⟩
        · obtain ⟨x, _, rfl⟩ := Option.map_eq_some_iff.mp hs
          exact ⟨d, hd, g⟩
      · cases hs; exact ⟨d, hd, g⟩
      · cases hs; exact ⟨d, hd, g⟩

theorem desk_grown (C : Crypto) (X : Text) (M : Machine) (cwd : Place) (c : TwitterConfig) (pid : Nat) (addrs : List AddressToml)
    {t0 : UInt64} {sk vk : Bytes} {size : Nat} {r₁ r₂ : Bytes} : ∀ (evs : List DeskEv) (D D' : Desk) (d : Directory) (m : Nat), GrownBy C t0 sk vk size r₁ r₂ m d →
    D.host.server pid = some ⟨d, addrs⟩ → (∀ e, .host e ∈ evs → SparesProc pid e) → D.run C X M cwd c evs = some D' →
    ∃ d', D'.host.server pid = some ⟨d', addrs⟩ ∧ GrownBy C t0 sk vk size r₁ r₂ (m + epochsOf pid evs) d'
  | [], D, D', d, m, g, hd, _, hr => by cases hr; exact ⟨d, hd, g⟩
  | e :: evs, D, D', d, m, g, hd, hsp, hr => by
    simp only [Desk.run] at hr
    obtain ⟨D1, hs, hr⟩ := Option.bind_eq_some_iff.mp hr
    obtain ⟨d1, h1, h2⟩ := desk_step_grown C X M cwd c pid addrs e D D1 d g hd (fun e' h => hsp e' (h ▸ .head _)) hs
    rw [epochsOf_cons, ← Nat.add_assoc]
    exact desk_grown C X M cwd c pid addrs evs D1 D' d1 _ h2 h1 (fun e' h => hsp e' (.tail _ h)) hr

/-- the start of a server -/
theorem desk_start (C : Crypto) (X : Text) (M : Machine) (cwd : Place) (c : TwitterConfig) (pid : Nat) (k : ServerConf) (r₁ r₂ : Bytes) (srv : Server)
    (D D' : Desk) (hi : Idle D.host.os pid) (hok : (D.host.os.start M pid k.addresses).2 = true) (hnew : newServer C k.core (some r₁) (some r₂) = some srv)
    (hs : D.step C X M cwd c (.host (.run pid k (some r₁) (some r₂))) = some D') :
    D'.host.os = D.host.os.step M (.start pid k.addresses) ∧ D'.host.server pid = some ⟨srv.dir, k.addresses⟩ ∧ D'.terms = D.terms ∧
    dirAfter C k.policiesDeadline k.signKey k.vrfKey k.historyLength r₁ r₂ [] = some (srv.dir, [srv.dir.pad.latest]) := by
  simp only [Desk.step] at hs
  obtain ⟨h', hx, rfl⟩ := Option.map_eq_some_iff.mp hs
  simp only [Host.step] at hx
  rw [if_neg (by rw [ListenProofs.any_idle.2 hi]; exact Bool.false_ne_true), hnew] at hx
  simp only [Option.some.injEq, hok, if_true] at hx
  rw [← hx]
  refine ⟨rfl, if_pos rfl, rfl, ?_⟩
  unfold newServer at hnew
  obtain ⟨d0, hd0, rfl⟩ := Option.map_eq_some_iff.mp hnew
  have hd0' : newDirectory C k.policiesDeadline k.vrfKey k.signKey k.historyLength true (some r₁) (some r₂) = some d0 := hd0
  simp [dirAfter, hd0', Directory.runLog]

/-- the epochs of a history -/
theorem deskEpochs_cons (e : DeskEv) (es : List DeskEv) : deskEpochs (e :: es) = deskEpochs [e] + deskEpochs es := by
  cases e with
  | host e => cases e <;> simp [deskEpochs, Nat.add_comm]
  | _ => simp [deskEpochs]

/-- a registration over a network -/
theorem lives_registerOver {C : Crypto} {m : Nat} {d : Directory} (h : Lives C m d) (hm : m < 2 ^ 64) {N : Net} {conf : CliConf} (hu : N.scheme conf.reg ≠ none)
    (perms : Nat → Int → Bool) (rnd : Option Bytes) (T : Transfer) (cc : Client) {n : Bytes} (k : Bytes) (hn : Utf8 n) :
    ∃ x, cc.cliRegisterOver C N conf perms rnd T d n k = some x ∧ Lives C m x.1 := by
  obtain ⟨t0, sk, vk, size, r₁, r₂, pre, log, h1, h2⟩ := h
  obtain ⟨inv, _⟩ := dirAfter_padInv C t0 sk vk size r₁ r₂ pre (by omega) d log h2
  have ⟨x, hx⟩ : ∃ x, cc.cliRegisterOver C N conf perms rnd T d n k = some x := by
    rcases registerOver_cases N conf perms rnd T (after_std h2) cc k hn with e | ⟨_, d', text, e, _⟩
    · rw [e]; exact register_runs hu perms rnd inv (after_std h2) cc k hn
    · exact ⟨_, e⟩
  obtain ⟨d', cc', text⟩ := x
  refine ⟨_, hx, ?_⟩
  rcases registerOver_dir (after_std h2) hn hx with rfl | ⟨resp, hr⟩
  · exact ⟨t0, sk, vk, size, r₁, r₂, pre, log, h1, h2⟩
  · exact Lives.step ⟨t0, sk, vk, size, r₁, r₂, pre, log, h1, h2⟩ (.register rnd ⟨n, k⟩) (some resp) (by simp only [Directory.step, hr, Option.map_some])

/-- a lookup over a network -/
theorem lives_lookupOver {C : Crypto} {m : Nat} {d : Directory} (h : Lives C m d) (hm : m < 2 ^ 64) {N : Net} {conf : CliConf} (hu : N.scheme conf.address ≠ none)
    (perms : Nat → Int → Bool) (T : Transfer) (cc : Client) (n : Bytes) :
    ∃ x, cc.cliLookupOver C N conf perms T d n = some x ∧ Lives C m x.1 := by
  obtain ⟨t0, sk, vk, size, r₁, r₂, pre, log, h1, h2⟩ := h
  obtain ⟨inv, _⟩ := dirAfter_padInv C t0 sk vk size r₁ r₂ pre (by omega) d log h2
  have ⟨x, hx⟩ : ∃ x, cc.cliLookupOver C N conf perms T d n = some x := by
    rcases lookupOver_cases N conf perms T (after_std h2) cc n with e | ⟨_, text, e⟩
    · rw [e]; exact lookup_runs hu perms inv (after_std h2) cc n
    · exact ⟨_, e⟩
  obtain ⟨d', cc', text⟩ := x
  refine ⟨_, hx, ?_⟩
  have := lookupOver_dir (after_std h2) hx
  subst this
  exact ⟨t0, sk, vk, size, r₁, r₂, pre, log, h1, h2⟩

/-- both addresses of a configuration can be read -/
def GoodConf (conf : CliConf) : Prop := parseUrl conf.reg ≠ none ∧ parseUrl conf.address ≠ none

theorem net_scheme {M : Machine} {o : Os} {nobody : Nat} {a : Bytes} (h : parseUrl a ≠ none) : (o.net M nobody).scheme a ≠ none := by
  obtain ⟨u, hu⟩ := Option.ne_none_iff_exists'.mp h
  show (parseUrl a).map Url.scheme ≠ none
  rw [hu]
  exact fun h => nomatch h

theorem refusal_some {N : Net} {a refused : Bytes} (h : N.scheme a ≠ none) : ∃ x, refusal N a refused = some x := by
  obtain ⟨s, hs⟩ := Option.ne_none_iff_exists'.mp h
  unfold refusal Net.usable
  rw [hs]
  exact ⟨_, rfl⟩

theorem desk_lives (C : Crypto) (X : Text) (M : Machine) (cwd : Place) (c : TwitterConfig) : ∀ (evs : List DeskEv) (D : Desk) (m : Nat),
    m + deskEpochs evs < 2 ^ 64 → (∀ pid r, D.host.server pid = some r → Lives C m r.dir) → (∀ u, GoodConf (D.terms u).conf) →
    (∀ u k b, .opened u k b ∈ evs → GoodConf ⟨k.regAddress, k.address⟩) → ∃ D', D.run C X M cwd c evs = some D'
  | [], D, m, _, _, _, _ => ⟨D, rfl⟩
  | e :: evs, D, m, hm, hl, hc, ho => by
    have put : ∀ (D2 : Desk) u t, D2.terms = D.terms → GoodConf t.conf → ∀ v, GoodConf ((D2.put u t).terms v).conf := by
      intro D2 u t h2 ht v
      show GoodConf (if v = u then t else D2.terms v).conf
      split
      · exact ht
      · rw [h2]; exact hc v
    have set : ∀ (q : Nat) (o : Option Running), (∀ r, o = some r → Lives C m r.dir) →
        ∀ pid r, (D.host.set q o).server pid = some r → Lives C m r.dir := by
      intro q o ho pid r hr
      have hr' : (if pid = q then o else D.host.server pid) = some r := hr
      split at hr'
      · exact ho r hr'
      · exact hl pid r hr'
    have key : ∃ D1, D.step C X M cwd c e = some D1 ∧ (∀ pid r, D1.host.server pid = some r → Lives C (m + deskEpochs [e]) r.dir) ∧
        ∀ u, GoodConf (D1.terms u).conf := by
      cases e with
      | host e =>
        have he : hostEpochs [e] = deskEpochs [.host e] := by cases e <;> rfl
        obtain ⟨h', hr, hl'⟩ := host_lives C X M cwd c [e] D.host m (by rw [he]; rw [deskEpochs_cons] at hm; omega) hl
        simp only [Host.runAll] at hr
        obtain ⟨h'', hs, e2⟩ := Option.bind_eq_some_iff.mp hr
        cases e2
        exact ⟨{ D with host := h' }, by simp only [Desk.step, hs, Option.map_some], by rw [← he]; exact hl', hc⟩
      | opened v k b => exact ⟨_, rfl, hl, put _ _ _ rfl (ho v k b (.head _))⟩
      | ended v err =>
        refine ⟨_, rfl, ?_, ?_⟩
        · intro pid r hr
          refine hl pid r ?_
          rw [← hr]; split <;> rfl
        · split
          · exact hc
          · exact put _ _ _ rfl (hc v)
      | line v rnd l T refused =>
        show ∃ D1, D.type C M v rnd l T refused = some D1 ∧ (∀ pid r, D1.host.server pid = some r → Lives C m r.dir) ∧ _
        unfold Desk.type
        dsimp only
        split
        · exact ⟨D, rfl, hl, hc⟩
        · split
          · rename_i n k hcmd
            split
            · rename_i s r ha
              unfold Host.answering at ha
              obtain ⟨s', hdial, ha⟩ := Option.bind_eq_some_iff.mp ha
              obtain ⟨r', hr', he⟩ := Option.map_eq_some_iff.mp ha
              cases he
              obtain ⟨x, hx, hx'⟩ := lives_registerOver (hl _ _ hr') (by omega) (N := D.host.os.net M s.ptr) (net_scheme (hc v).1)
                (permsMap (r.addrs.map fun a => ⟨a.ptr, a.allowRegistration⟩)) rnd T (D.terms v).client k (command_register hcmd).1
              rw [hx]
              exact ⟨_, rfl, set _ _ (fun r'' h => by cases h; exact hx'), put _ _ _ rfl (hc v)⟩
            · obtain ⟨x, hx⟩ := refusal_some (N := D.host.os.net M 0) (refused := refused) (net_scheme (hc v).1)
              rw [hx]
              exact ⟨_, rfl, hl, put _ _ _ rfl (hc v)⟩
          · rename_i n hcmd
            split
            · rename_i s r ha
              unfold Host.answering at ha
              obtain ⟨s', hdial, ha⟩ := Option.bind_eq_some_iff.mp ha
              obtain ⟨r', hr', he⟩ := Option.map_eq_some_iff.mp ha
              cases he
              obtain ⟨x, hx, hx'⟩ := lives_lookupOver (hl _ _ hr') (by omega) (N := D.host.os.net M s.ptr) (net_scheme (hc v).2)
                (permsMap (r.addrs.map fun a => ⟨a.ptr, a.allowRegistration⟩)) T (D.terms v).client n
              rw [hx]
              exact ⟨_, rfl, set _ _ (fun r'' h => by cases h; exact hx'), put _ _ _ rfl (hc v)⟩
            · obtain ⟨x, hx⟩ := refusal_some (N := D.host.os.net M 0) (refused := refused) (net_scheme (hc v).2)
              rw [hx]
              exact ⟨_, rfl, hl, put _ _ _ rfl (hc v)⟩
          · exact ⟨_, rfl, hl, put _ _ _ rfl (hc v)⟩
          · exact ⟨_, rfl, hl, put _ _ _ rfl (hc v)⟩
    obtain ⟨D1, hs, hl1, hc1⟩ := key
    obtain ⟨D', hr⟩ := desk_lives C X M cwd c evs D1 (m + deskEpochs [e]) (by rw [deskEpochs_cons] at hm; omega) hl1 hc1 (fun u k b h => ho u k b (.tail _ h))
    exact ⟨D', by simp only [Desk.run, hs, Option.bind_some]; exact hr⟩

end Coniks
