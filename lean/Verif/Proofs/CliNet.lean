import Verif.Spec.CliNet
import Verif.Proofs.Cli
/-
Proofs for C82: commands over a network that may fail.
-/
namespace Coniks
open Spec Json

/-! ### the server's side -/

/-- a request that was cut is a request that is not there, or it is the whole request as far as the server can see -/
theorem accept_cut (C : Crypto) (perms : Nat → Int → Bool) (rnd : Option Bytes) (d : Directory) (addr : Nat) (t : Int) (v : JVal) (hv : v.Ok)
    (n : Nat) (bad : Bool) :
    acceptClient C goJson perms rnd d addr ⟨(encRequest t v).print.take n, bad⟩ =
        acceptClient C goJson perms rnd d addr ⟨(encRequest t v).print, false⟩ ∨
    ((n < 8192 ∨ bad = true) ∧ ∃ r, (r = none ∨ r = some (newErrorResponse ErrMalformedMessage)) ∧
      acceptClient C goJson perms rnd d addr ⟨(encRequest t v).print.take n, bad⟩ = some (d, r)) := by
  have hcut := request_cut t v hv
  generalize (encRequest t v).print = msg at hcut
  by_cases h1 : 8192 ≤ (msg.take n).length
  · left
    have h2 : 8192 ≤ n ∧ 8192 ≤ msg.length := by rw [List.length_take] at h1; omega
    have e1 : (Conn.mk (msg.take n) bad).read = some (msg.take 8192) := by
      unfold Conn.read; dsimp only; rw [if_pos h1, List.take_take, Nat.min_eq_left h2.1]
    have e2 : (Conn.mk msg false).read = some (msg.take 8192) := by
      unfold Conn.read; dsimp only; rw [if_pos h2.2]
    unfold acceptClient screen
    rw [e1, e2]
  · cases bad with
    | true =>
      right
      refine ⟨.inr rfl, none, .inl rfl, ?_⟩
      have e1 : (Conn.mk (msg.take n) true).read = none := by
        unfold Conn.read; dsimp only; rw [if_neg h1, if_pos rfl]
      unfold acceptClient screen
      rw [e1]
    | false =>
      have e1 : (Conn.mk (msg.take n) false).read = some (msg.take n) := read_short _ (by omega)
      by_cases h3 : n < msg.length
      · right
        refine ⟨.inl (by rw [List.length_take] at h1; omega), _, .inr rfl, ?_⟩
        unfold acceptClient screen
        rw [e1]
        dsimp only
        rw [hcut n h3]
        rfl
      · left
        rw [List.take_of_length_le (by omega)]

/-- what the server writes -/
def Answer (t : Int) (r : Option Response) : Prop := ∀ x, r = some x → Sendable t x

theorem answer_bad (t : Int) (r : Option Response) (h : r = none ∨ r = some (newErrorResponse ErrMalformedMessage)) : Answer t r := by
  intro x hx
  rcases h with rfl | rfl
  · exact nomatch hx
  · cases hx; exact sendable_error t _ (.inl rfl)

/-! ### the client's side -/

theorem parse_nil : parse ([] : Bytes) = none := by decide +kernel

/-- an answer that was cut is refused -/
theorem read_cut {t : Int} {r : Option Response} (h : Answer t r) (m : Nat) :
    clientRead ((replyBytes r).take m) = clientRead (replyBytes r) ∨ (m < 8192 ∧ parse (clientRead ((replyBytes r).take m)) = none) := by
  unfold clientRead
  by_cases hm : 8192 ≤ m
  · left
    rw [List.take_take, Nat.min_eq_left hm]
  · by_cases hl : (replyBytes r).length ≤ m
    · left; rw [List.take_of_length_le hl]
    · right
      refine ⟨by omega, ?_⟩
      rw [List.take_take, Nat.min_eq_right (by omega)]
      cases r with
      | none => simp [replyBytes] at hl
      | some x => exact take_marshal x (h x rfl).strs m (by simpa [replyBytes] using hl)

theorem afterRegister_bad {C : Crypto} {cc : Client} {b : Bytes} (h : parse b = none) (n k : Bytes) :
    cc.afterRegister C (.ok b) n k = some (cc, ascii "Error: [coniks] Malformed message") := by
  unfold Client.afterRegister
  dsimp only
  rw [unmarshal_bad _ _ h, Option.bind_some, ← malformed_text]
  rfl

theorem afterLookup_bad {C : Crypto} {cc : Client} {b : Bytes} (h : parse b = none) (n : Bytes) :
    cc.afterLookup C (.ok b) n = some (cc, ascii "Error: [coniks] Malformed message") := by
  unfold Client.afterLookup
  dsimp only
  rw [unmarshal_bad _ _ h, Option.bind_some, ← malformed_text]
  rfl

theorem unmarshal_malformed (t : Int) : unmarshalResponse t (clientRead (marshalResponse (newErrorResponse ErrMalformedMessage))) =
      some ⟨ErrMalformedMessage, .none⟩ := by
  have e : ((parse (clientRead (marshalResponse (newErrorResponse ErrMalformedMessage)))).bind (decEnvelope (0, none))).map
      (fun x => (x.1, x.2.isNone)) = some (ErrMalformedMessage, true) := by decide +kernel
  unfold unmarshalResponse
  obtain ⟨⟨c, o⟩, h, hx⟩ := Option.map_eq_some_iff.mp e
  simp only [Prod.mk.injEq, Option.isNone_iff_eq_none] at hx
  obtain ⟨rfl, rfl⟩ := hx
  rw [h]
  rfl

/-- the answers of a server that saw no proper request -/
theorem afterRegister_none {C : Crypto} {cc : Client} {r : Option Response} (h : r = none ∨ r = some (newErrorResponse ErrMalformedMessage))
    (n k : Bytes) : cc.afterRegister C (.ok (clientRead (replyBytes r))) n k = some (cc, ascii "Error: [coniks] Malformed message") := by
  rcases h with rfl | rfl
  · exact afterRegister_bad parse_nil n k
  · unfold Client.afterRegister
    dsimp only [replyBytes]
    rw [unmarshal_malformed, Option.bind_some, ← malformed_text]
    rfl

theorem afterLookup_none {C : Crypto} {cc : Client} {r : Option Response} (h : r = none ∨ r = some (newErrorResponse ErrMalformedMessage))
    (n : Bytes) : cc.afterLookup C (.ok (clientRead (replyBytes r))) n = some (cc, ascii "Error: [coniks] Malformed message") := by
  rcases h with rfl | rfl
  · exact afterLookup_bad parse_nil n
  · unfold Client.afterLookup
    dsimp only [replyBytes]
    rw [unmarshal_malformed, Option.bind_some, ← malformed_text]
    rfl

/-! ### commands -/

theorem error_text1 (e : Bytes) : ascii "Error while receiving response: " ++ e = ascii "Error" ++ (ascii " while receiving response: " ++ e) := by
  rw [← List.append_assoc]; rfl
theorem error_text2 : ascii "Error: [coniks] Malformed message" = ascii "Error" ++ ascii ": [coniks] Malformed message" := by decide +kernel
theorem error_line (x : Bytes) : ascii "[+] " ++ (ascii "Error" ++ x) = ascii "[+] Error" ++ x := by
  rw [← List.append_assoc]; rfl

/-- the general form of both commands: `after` is the client's side -/
theorem over_cases (C : Crypto) (perms : Nat → Int → Bool) (rnd : Option Bytes) (d : Directory) (addr : Nat) (t : Int) (v : JVal) (hv : v.Ok)
    (cc : Client) (after : Except Bytes Bytes → Go (Client × Bytes))
    (he : ∀ e, after (.error e) = some (cc, ascii "Error while receiving response: " ++ e))
    (hb : ∀ b, parse b = none → after (.ok b) = some (cc, ascii "Error: [coniks] Malformed message"))
    (hn : ∀ r, (r = none ∨ r = some (newErrorResponse ErrMalformedMessage)) →
      after (.ok (clientRead (replyBytes r))) = some (cc, ascii "Error: [coniks] Malformed message"))
    (ha : ∀ d' r, acceptClient C goJson perms rnd d addr ⟨(encRequest t v).print, false⟩ = some (d', r) → Answer t r) (T : Transfer) :
    (exchangeOver C perms rnd d addr (encRequest t v).print T).bind (fun x => (after x.2).map fun y => (x.1, y.1, y.2)) =
        (exchange C perms rnd d addr (encRequest t v).print).bind (fun x => (after (.ok x.2)).map fun y => (x.1, y.1, y.2)) ∨
    (¬ Transfer.Perfect T ∧ ∃ d' text,
      (exchangeOver C perms rnd d addr (encRequest t v).print T).bind (fun x => (after x.2).map fun y => (x.1, y.1, y.2)) =
        some (d', cc, ascii "Error" ++ text) ∧
      (d' = d ∨ ∃ r, acceptClient C goJson perms rnd d addr ⟨(encRequest t v).print, false⟩ = some (d', r))) := by
  cases T with
  | noDial e =>
    right
    refine ⟨(fun h => h), d, ascii " while receiving response: " ++ e, ?_, .inl rfl⟩
    simp only [exchangeOver, Option.bind_some, he, Option.map_some, error_text1]
  | carried n bad m err =>
    have hacc := accept_cut C perms rnd d addr t v hv n bad
    cases err with
    | some e =>
      rcases hacc with h | ⟨hp, r, hr, h⟩
      · cases hx : acceptClient C goJson perms rnd d addr ⟨(encRequest t v).print, false⟩ with
        | none =>
          left
          simp only [exchangeOver, exchange, h, hx, Option.map_none, Option.bind_none]
        | some x =>
          right
          obtain ⟨d', r⟩ := x
          refine ⟨(fun hh => nomatch hh.2.2.2), d', ascii " while receiving response: " ++ e, ?_, .inr ⟨r, rfl⟩⟩
          simp only [exchangeOver, h, hx, Option.map_some, Option.bind_some, he, error_text1]
      · right
        refine ⟨(fun hh => nomatch hh.2.2.2), d, ascii " while receiving response: " ++ e, ?_, .inl rfl⟩
        simp only [exchangeOver, h, Option.map_some, Option.bind_some, he, error_text1]
    | none =>
      rcases hacc with h | ⟨hp, r, hr, h⟩
      · cases hx : acceptClient C goJson perms rnd d addr ⟨(encRequest t v).print, false⟩ with
        | none =>
          left
          simp only [exchangeOver, exchange, h, hx, Option.map_none, Option.bind_none]
        | some x =>
          obtain ⟨d', r⟩ := x
          rcases read_cut (ha d' r hx) m with hc | ⟨hm, hc⟩
          · left
            simp only [exchangeOver, exchange, h, hx, Option.map_some, Option.bind_some, hc]
          · right
            refine ⟨(fun hh => by have := hh.2.2.1; omega), d', ascii ": [coniks] Malformed message", ?_, .inr ⟨r, rfl⟩⟩
            simp only [exchangeOver, h, hx, Option.map_some, Option.bind_some, hb _ hc, error_text2]
      · right
        have hnp : ¬ Transfer.Perfect (.carried n bad m none) := by
          intro hh
          rcases hp with hp | hp
          · have := hh.1; omega
          · rw [hh.2.1] at hp; exact nomatch hp
        rcases read_cut (answer_bad t r hr) m with hc | ⟨hm, hc⟩
        · refine ⟨hnp, d, ascii ": [coniks] Malformed message", ?_, .inl rfl⟩
          simp only [exchangeOver, h, Option.map_some, Option.bind_some, hc, hn r hr, error_text2]
        · refine ⟨hnp, d, ascii ": [coniks] Malformed message", ?_, .inl rfl⟩
          simp only [exchangeOver, h, Option.map_some, Option.bind_some, hb _ hc, error_text2]

/-- what the server does with the whole message of a registration -/
theorem accept_register {C : Crypto} {perms : Nat → Int → Bool} {rnd : Option Bytes} {d : Directory} (i : StdDir d) {addr : Nat} {n k : Bytes}
    (hn : Utf8 n) {d' : Directory} {r : Option Response}
    (h : acceptClient C goJson perms rnd d addr ⟨createRegistrationMsg n (some k), false⟩ = some (d', r)) :
    Answer RegistrationType r ∧ (d' = d ∨ ∃ resp, d.register C rnd ⟨n, k⟩ = some (d', resp)) := by
  by_cases hl : (createRegistrationMsg n (some k)).length ≤ 8192
  · unfold acceptClient screen at h
    rw [read_short _ hl] at h
    dsimp only at h
    rw [request_registration, (clean_iff n).mpr hn] at h
    dsimp only at h
    simp only [checkRequestType] at h
    cases hp : perms addr 0 with
    | false =>
      simp only [hp, Bool.not_false, if_true, Option.some.injEq, Prod.mk.injEq] at h
      obtain ⟨rfl, rfl⟩ := h
      exact ⟨answer_bad _ _ (.inr rfl), .inl rfl⟩
    | true =>
      simp only [hp, Bool.not_true, Bool.false_eq_true, if_false, Option.getD_some, handle_reg] at h
      obtain ⟨⟨d2, resp⟩, hr, hx⟩ := Option.map_eq_some_iff.mp h
      simp only [Prod.mk.injEq] at hx
      obtain ⟨rfl, rfl⟩ := hx
      exact ⟨fun x hx => by cases hx; exact register_sendable i hr, .inr ⟨resp, hr⟩⟩
  · unfold acceptClient screen at h
    rw [read_long _ (by omega)] at h
    dsimp only at h
    rw [show unmarshalRequest goJson ((createRegistrationMsg n (some k)).take 8192) = none from
      request_cut RegistrationType _ (encRegistration_ok n (some k)).1 8192 (by unfold createRegistrationMsg at hl; omega)] at h
    simp only [Option.some.injEq, Prod.mk.injEq] at h
    obtain ⟨rfl, rfl⟩ := h
    exact ⟨answer_bad _ _ (.inr rfl), .inl rfl⟩

theorem accept_lookup {C : Crypto} {perms : Nat → Int → Bool} {d : Directory} (i : StdDir d) {addr : Nat} {n : Bytes}
    {d' : Directory} {r : Option Response}
    (h : acceptClient C goJson perms none d addr ⟨createKeyLookupMsg n, false⟩ = some (d', r)) :
    Answer KeyLookupType r ∧ d' = d := by
  by_cases hl : (createKeyLookupMsg n).length ≤ 8192
  · unfold acceptClient screen at h
    rw [read_short _ hl] at h
    dsimp only at h
    rw [request_lookup] at h
    dsimp only at h
    simp only [checkRequestType] at h
    cases hp : perms addr 1 with
    | false =>
      simp only [hp, Bool.not_false, if_true, Option.some.injEq, Prod.mk.injEq] at h
      obtain ⟨rfl, rfl⟩ := h
      exact ⟨answer_bad _ _ (.inr rfl), rfl⟩
    | true =>
      simp only [hp, Bool.not_true, Bool.false_eq_true, if_false, handle_lookup, Option.map_map] at h
      obtain ⟨resp, hr, hx⟩ := Option.map_eq_some_iff.mp h
      simp only [Function.comp, Prod.mk.injEq] at hx
      obtain ⟨rfl, rfl⟩ := hx
      exact ⟨fun x hx => by cases hx; exact lookup_sendable i hr, rfl⟩
  · unfold acceptClient screen at h
    rw [read_long _ (by omega)] at h
    dsimp only at h
    rw [show unmarshalRequest goJson ((createKeyLookupMsg n).take 8192) = none from
      request_cut KeyLookupType _ (encRegistration_ok n none).1 8192 (by unfold createKeyLookupMsg at hl; omega)] at h
    simp only [Option.some.injEq, Prod.mk.injEq] at h
    obtain ⟨rfl, rfl⟩ := h
    exact ⟨answer_bad _ _ (.inr rfl), rfl⟩

theorem registerOver_cases {C : Crypto} (N : Net) (conf : CliConf) (perms : Nat → Int → Bool) (rnd : Option Bytes) (T : Transfer) {d : Directory}
    (i : StdDir d) (cc : Client) {n : Bytes} (k : Bytes) (hn : Utf8 n) :
    cc.cliRegisterOver C N conf perms rnd T d n k = cc.cliRegister C N conf perms rnd d n k ∨
    (¬ Transfer.Perfect T ∧ ∃ d' text, cc.cliRegisterOver C N conf perms rnd T d n k = some (d', cc, ascii "Error" ++ text) ∧
      (d' = d ∨ ∃ resp, d.register C rnd ⟨n, k⟩ = some (d', resp))) := by
  unfold Client.cliRegisterOver Client.cliRegister
  cases N.usable conf.reg with
  | none => left; rfl
  | some ok =>
    cases ok with
    | false => left; rfl
    | true =>
      simp only [Option.bind_some, if_true]
      rcases over_cases C perms rnd d (N.listener conf.reg) RegistrationType (encRegistration n (some k)) (encRegistration_ok n (some k)).1 cc
        (fun x => cc.afterRegister C x n k) (fun e => rfl) (fun b hb => afterRegister_bad hb n k) (fun r hr => afterRegister_none hr n k)
        (fun d' r h => (accept_register i hn h).1) T with h | ⟨hp, d', text, h, hd⟩
      · exact .inl h
      · refine .inr ⟨hp, d', text, h, ?_⟩
        rcases hd with hd | ⟨r, hd⟩
        · exact .inl hd
        · exact (accept_register i hn hd).2

theorem lookupOver_cases {C : Crypto} (N : Net) (conf : CliConf) (perms : Nat → Int → Bool) (T : Transfer) {d : Directory}
    (i : StdDir d) (cc : Client) (n : Bytes) :
    cc.cliLookupOver C N conf perms T d n = cc.cliLookup C N conf perms d n ∨
    (¬ Transfer.Perfect T ∧ ∃ text, cc.cliLookupOver C N conf perms T d n = some (d, cc, ascii "Error" ++ text)) := by
  unfold Client.cliLookupOver Client.cliLookup
  cases N.usable conf.address with
  | none => left; rfl
  | some ok =>
    cases ok with
    | false => left; rfl
    | true =>
      simp only [Option.bind_some, if_true]
      rcases over_cases C perms none d (N.listener conf.address) KeyLookupType (encRegistration n none) (encRegistration_ok n none).1 cc
        (fun x => cc.afterLookup C x n) (fun e => rfl) (fun b hb => afterLookup_bad hb n) (fun r hr => afterLookup_none hr n)
        (fun d' r h => (accept_lookup i h).1) T with h | ⟨hp, d', text, h, hd⟩
      · exact .inl h
      · refine .inr ⟨hp, text, ?_⟩
        rcases hd with rfl | ⟨r, hd⟩
        · exact h
        · rw [(accept_lookup i hd).2] at h; exact h

/-! ### sessions -/

theorem cliRegister_std {C : Crypto} {N : Net} {conf : CliConf} {perms : Nat → Int → Bool} {rnd : Option Bytes} {d d' : Directory} {cc cc' : Client}
    {n k text : Bytes} (i : StdDir d) (hn : Utf8 n) (h : cc.cliRegister C N conf perms rnd d n k = some (d', cc', text)) : StdDir d' := by
  unfold Client.cliRegister at h
  obtain ⟨ok, _, h⟩ := Option.bind_eq_some_iff.mp h
  cases ok with
  | false => simp only [Bool.false_eq_true, if_false, Option.some.injEq, Prod.mk.injEq] at h; exact h.1 ▸ i
  | true =>
    simp only [if_true] at h
    obtain ⟨⟨d2, b⟩, hx, h⟩ := Option.bind_eq_some_iff.mp h
    obtain ⟨y, _, h⟩ := Option.map_eq_some_iff.mp h
    simp only [Prod.mk.injEq] at h
    obtain ⟨rfl, _, _⟩ := h
    unfold exchange at hx
    obtain ⟨⟨d3, r⟩, hx2, h⟩ := Option.map_eq_some_iff.mp hx
    simp only [Prod.mk.injEq] at h
    obtain ⟨rfl, _⟩ := h
    rcases (accept_register i hn hx2).2 with rfl | ⟨resp, hr⟩
    · exact i
    · exact register_std i hr

theorem cliLookup_same {C : Crypto} {N : Net} {conf : CliConf} {perms : Nat → Int → Bool} {d d' : Directory} {cc cc' : Client}
    {n text : Bytes} (i : StdDir d) (h : cc.cliLookup C N conf perms d n = some (d', cc', text)) : d' = d := by
  unfold Client.cliLookup at h
  obtain ⟨ok, _, h⟩ := Option.bind_eq_some_iff.mp h
  cases ok with
  | false => simp only [Bool.false_eq_true, if_false, Option.some.injEq, Prod.mk.injEq] at h; exact h.1.symm
  | true =>
    simp only [if_true] at h
    obtain ⟨⟨d2, b⟩, hx, h⟩ := Option.bind_eq_some_iff.mp h
    obtain ⟨y, _, h⟩ := Option.map_eq_some_iff.mp h
    simp only [Prod.mk.injEq] at h
    obtain ⟨rfl, _, _⟩ := h
    unfold exchange at hx
    obtain ⟨⟨d3, r⟩, hx2, h⟩ := Option.map_eq_some_iff.mp hx
    simp only [Prod.mk.injEq] at h
    obtain ⟨rfl, _⟩ := h
    exact (accept_lookup i hx2).2

theorem faulty_run {C : Crypto} {N : Net} {conf : CliConf} {perms : Nat → Int → Bool} :
    ∀ (evs : List NetEvent) (d : Directory) (cc : Client) (ts : Bool), StdDir d →
    ∀ d' cc' out, replOver C N conf perms d cc ts evs = some (d', cc', out) →
    ∃ evs' out', Faulty ts evs out evs' out' ∧ repl C N conf perms d cc ts evs' = some (d', cc', out')
  | [], d, cc, ts, _, d', cc', out, h => by
    simp only [replOver, Option.some.injEq, Prod.mk.injEq] at h
    obtain ⟨rfl, rfl, rfl⟩ := h
    exact ⟨[], [], .nil, rfl⟩
  | .dir op :: evs, d, cc, ts, i, d', cc', out, h => by
    simp only [replOver] at h
    obtain ⟨⟨d1, r⟩, hs, h⟩ := Option.bind_eq_some_iff.mp h
    obtain ⟨evs', out', hf, hr⟩ := faulty_run evs d1 cc ts (step_std i hs) d' cc' out h
    refine ⟨_, _, .dir hf, ?_⟩
    simp only [repl, hs, Option.bind_some]
    exact hr
  | .ended err :: evs, d, cc, ts, i, d', cc', out, h => by
    simp only [replOver, Option.some.injEq, Prod.mk.injEq] at h
    obtain ⟨rfl, rfl, rfl⟩ := h
    exact ⟨[], [], .ended, rfl⟩
  | .line rnd l T :: evs, d, cc, ts, i, d', cc', out, h => by
    have other : ∀ c : Command, command (fields l) = c → (∀ n k, c ≠ .register n k) → (∀ n, c ≠ .lookup n) → c ≠ .exit →
        ∃ evs' out', Faulty ts (.line rnd l T :: evs) out evs' out' ∧ repl C N conf perms d cc ts evs' = some (d', cc', out') := by
      intro c hc n1 n2 n3
      have e1 : (replOver C N conf perms d cc (localCommand ts (utf8 l) c).1 evs).map (fun z =>
          (z.1, z.2.1, (localCommand ts (utf8 l) c).2.toList ++ z.2.2)) = some (d', cc', out) := by
        rw [← h]
        simp only [replOver, hc]
      obtain ⟨⟨d1, c1, o1⟩, hz, hx⟩ := Option.map_eq_some_iff.mp e1
      simp only [Prod.mk.injEq] at hx
      obtain ⟨rfl, rfl, rfl⟩ := hx
      obtain ⟨evs', out', hf, hr⟩ := faulty_run evs d cc _ i d1 c1 o1 hz
      refine ⟨.line rnd l :: evs', (localCommand ts (utf8 l) c).2.toList ++ out', .local (hc ▸ n1) (hc ▸ n2) (by rw [hc]) hf, ?_⟩
      simp only [repl, hc]
      rw [hr]
      rfl
    cases hc : command (fields l) with
    | register n k =>
      have hn := (command_register hc).1
      simp only [replOver, hc] at h
      obtain ⟨⟨d1, c1, text⟩, hy, h⟩ := Option.bind_eq_some_iff.mp h
      obtain ⟨⟨d2, c2, o2⟩, hz, hx⟩ := Option.map_eq_some_iff.mp h
      simp only [Prod.mk.injEq] at hx
      obtain ⟨rfl, rfl, rfl⟩ := hx
      rcases registerOver_cases N conf perms rnd T i cc k hn with he | ⟨hp, d3, t3, he, hd⟩
      · rw [he] at hy
        obtain ⟨evs', out', hf, hr⟩ := faulty_run evs d1 c1 ts (cliRegister_std i hn hy) d2 c2 o2 hz
        refine ⟨_, _, .worked (.inl ⟨n, k, hc⟩) hf, ?_⟩
        simp only [repl, hc, hy, Option.bind_some]
        rw [hr]; rfl
      · rw [he] at hy
        simp only [Option.some.injEq, Prod.mk.injEq] at hy
        obtain ⟨rfl, rfl, rfl⟩ := hy
        rcases hd with rfl | ⟨resp, hd⟩
        · obtain ⟨evs', out', hf, hr⟩ := faulty_run evs d3 cc ts i d2 c2 o2 hz
          rw [error_line]
          exact ⟨_, _, .lost hp (.inl ⟨n, k, hc⟩) hf, hr⟩
        · obtain ⟨evs', out', hf, hr⟩ := faulty_run evs d3 cc ts (register_std i hd) d2 c2 o2 hz
          rw [error_line]
          refine ⟨_, _, .unheard hp hc hf, ?_⟩
          simp only [repl, Directory.step, hd, Option.map_some, Option.bind_some]
          exact hr
    | lookup n =>
      simp only [replOver, hc] at h
      obtain ⟨⟨d1, c1, text⟩, hy, h⟩ := Option.bind_eq_some_iff.mp h
      obtain ⟨⟨d2, c2, o2⟩, hz, hx⟩ := Option.map_eq_some_iff.mp h
      simp only [Prod.mk.injEq] at hx
      obtain ⟨rfl, rfl, rfl⟩ := hx
      rcases lookupOver_cases N conf perms T i cc n with he | ⟨hp, t3, he⟩
      · rw [he] at hy
        obtain ⟨evs', out', hf, hr⟩ := faulty_run evs d1 c1 ts (cliLookup_same i hy ▸ i) d2 c2 o2 hz
        refine ⟨_, _, .worked (.inr ⟨n, hc⟩) hf, ?_⟩
        simp only [repl, hc, hy, Option.bind_some]
        rw [hr]; rfl
      · rw [he] at hy
        simp only [Option.some.injEq, Prod.mk.injEq] at hy
        obtain ⟨rfl, rfl, rfl⟩ := hy
        obtain ⟨evs', out', hf, hr⟩ := faulty_run evs d cc ts i d2 c2 o2 hz
        rw [error_line]
        exact ⟨_, _, .lost hp (.inr ⟨n, hc⟩) hf, hr⟩
    | exit =>
      simp only [replOver, hc, Option.some.injEq, Prod.mk.injEq] at h
      obtain ⟨rfl, rfl, rfl⟩ := h
      refine ⟨_, _, .exit hc, ?_⟩
      simp only [repl, hc]
    | _ => exact other _ hc (by simp) (by simp) (by simp)

theorem perfect_run {C : Crypto} {N : Net} {conf : CliConf} {perms : Nat → Int → Bool} :
    ∀ (evs : List NetEvent) (d : Directory) (cc : Client) (ts : Bool), StdDir d → NoFault evs →
    replOver C N conf perms d cc ts evs = repl C N conf perms d cc ts (evs.filterMap NetEvent.plain)
  | [], _, _, _, _, _ => rfl
  | .dir op :: evs, d, cc, ts, i, hf => by
    simp only [replOver, List.filterMap_cons, NetEvent.plain, repl]
    cases hs : d.step C op with
    | none => rfl
    | some x => exact perfect_run evs x.1 cc ts (step_std i hs) (fun e he => hf e (by simp [he]))
  | .ended err :: evs, _, _, _, _, hf => absurd (hf (.ended err) (by simp)) (fun h => h)
  | .line rnd l T :: evs, d, cc, ts, i, hf => by
    have hT : Transfer.Perfect T := hf (.line rnd l T) (by simp)
    have hf' : NoFault evs := fun e he => hf e (by simp [he])
    cases hc : command (fields l) with
    | register n k =>
      simp only [replOver, List.filterMap_cons, NetEvent.plain, repl, hc]
      have hn := (command_register hc).1
      rcases registerOver_cases N conf perms rnd T i cc k hn with he | ⟨hp, _⟩
      · rw [he]
        cases hy : cc.cliRegister C N conf perms rnd d n k with
        | none => rfl
        | some y =>
          obtain ⟨d1, c1, t1⟩ := y
          simp only [Option.bind_some]
          rw [perfect_run evs d1 c1 ts (cliRegister_std i hn hy) hf']
      · exact absurd hT hp
    | lookup n =>
      simp only [replOver, List.filterMap_cons, NetEvent.plain, repl, hc]
      rcases lookupOver_cases N conf perms T i cc n with he | ⟨hp, _⟩
      · rw [he]
        cases hy : cc.cliLookup C N conf perms d n with
        | none => rfl
        | some y =>
          obtain ⟨d1, c1, t1⟩ := y
          simp only [Option.bind_some]
          rw [perfect_run evs d1 c1 ts (cliLookup_same i hy ▸ i) hf']
      · exact absurd hT hp
    | exit => simp only [replOver, List.filterMap_cons, NetEvent.plain, repl, hc]
    | _ =>
      simp only [replOver, List.filterMap_cons, NetEvent.plain, repl, hc]
      rw [perfect_run evs d cc _ i hf']

end Coniks
