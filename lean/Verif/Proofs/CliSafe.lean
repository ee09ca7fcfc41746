import Verif.Proofs.CliNet
import Verif.Props.ClientSafety
/-
Proofs for C82: no answer of an honest server crashes the client, because the only answers that could are longer than the client reads.
-/
namespace Coniks
open Spec Json

/-! ### how long an answer is -/

theorem elems_le {v : JVal} : ∀ {xs : List JVal}, v ∈ xs → v.print.length ≤ (printElems xs).length
  | x :: xs, h => by
    rcases List.mem_cons.mp h with rfl | h
    · simp only [printElems, List.length_cons, List.length_append]; omega
    · have := elems_le h
      simp only [printElems, List.length_cons, List.length_append]; omega

theorem elem_le {v : JVal} {xs : List JVal} (h : v ∈ xs) : v.print.length ≤ (JVal.arr xs).print.length := by
  cases xs with
  | nil => exact nomatch h
  | cons x xs =>
    rcases List.mem_cons.mp h with rfl | h
    · simp only [JVal.print, List.length_cons, List.length_append]; omega
    · have := elems_le h
      simp only [JVal.print, List.length_cons, List.length_append]; omega

theorem elems_length {c : Nat} : ∀ {xs : List JVal}, (∀ v ∈ xs, c ≤ v.print.length) → (c + 1) * xs.length ≤ (printElems xs).length
  | [], _ => by simp
  | x :: xs, h => by
    have h1 := h x (by simp)
    have h2 := elems_length (xs := xs) (fun v hv => h v (by simp [hv]))
    simp only [printElems, List.length_cons, List.length_append, Nat.mul_add]; omega

theorem arr_length {c : Nat} {xs : List JVal} (h : ∀ v ∈ xs, c ≤ v.print.length) : (c + 1) * xs.length ≤ (JVal.arr xs).print.length := by
  cases xs with
  | nil => simp
  | cons x xs =>
    have h1 := h x (by simp)
    have h2 := elems_length (xs := xs) (fun v hv => h v (by simp [hv]))
    simp only [JVal.print, List.length_cons, List.length_append, Nat.mul_add]; omega

theorem members_le {k : Bytes} {v : JVal} : ∀ {ms : List (Bytes × JVal)}, (k, v) ∈ ms → v.print.length ≤ (printMembers ms).length
  | m :: ms, h => by
    rcases List.mem_cons.mp h with rfl | h
    · simp only [printMembers, printMember, List.length_cons, List.length_append]; omega
    · have := members_le h
      simp only [printMembers, List.length_cons, List.length_append]; omega

theorem member_le {k : Bytes} {v : JVal} {ms : List (Bytes × JVal)} (h : (k, v) ∈ ms) : v.print.length ≤ (JVal.obj ms).print.length := by
  cases ms with
  | nil => exact nomatch h
  | cons x xs =>
    rcases List.mem_cons.mp h with rfl | h
    · simp only [JVal.print, printMember, List.length_cons, List.length_append]; omega
    · have := members_le h
      simp only [JVal.print, List.length_cons, List.length_append]; omega

theorem decNat_pos (n : Nat) : 1 ≤ (decNat n).length := by
  unfold decNat decAux; split <;> simp

theorem arr32_length (a : Arr32) : 64 ≤ (encArr32 a).print.length := by
  have h := arr_length (c := 1) (xs := a.1.map fun b => encNat b.toNat) (fun v hv => by
    obtain ⟨b, _, rfl⟩ := List.mem_map.mp hv
    exact decNat_pos _)
  rw [List.length_map, a.2] at h
  exact h

theorem path_length (ap : AuthPath) : 65 * ap.prunedTree.length ≤ (encAuthPath ap).print.length := by
  have h1 : (encSlice encArr32 ap.prunedTree).print.length ≤ (encAuthPath ap).print.length :=
    member_le (k := ascii "PrunedTree") (by simp)
  refine Nat.le_trans ?_ h1
  cases hp : ap.prunedTree with
  | nil => simp
  | cons x xs =>
    have h := arr_length (c := 64) (xs := (x :: xs).map encArr32) (fun v hv => by
      obtain ⟨b, _, rfl⟩ := List.mem_map.mp hv
      exact arr32_length b)
    rw [List.length_map] at h
    exact h

/-- every level of the tree on the path costs 65 bytes at least -/
theorem answer_length (ap : AuthPath) (s : DirSTR) (tb : Option TB) (e : ErrorCode) :
    65 * ap.prunedTree.length ≤ (marshalResponse (newSingleProof ap s tb e)).length := by
  refine Nat.le_trans (path_length ap) ?_
  refine Nat.le_trans (elem_le (xs := [encAuthPath ap]) (by simp)) ?_
  have h1 : (JVal.arr [encAuthPath ap]).print.length ≤ (encProof ⟨[some ap], [some s], tb⟩).print.length := by
    unfold encProof
    exact member_le (k := ascii "AP") (by simp [encSlice, encPtr])
  refine Nat.le_trans h1 ?_
  exact member_le (k := ascii "DirectoryResponse") (v := encProof ⟨[some ap], [some s], tb⟩)
    (ms := [(ascii "Error", encInt e), (ascii "DirectoryResponse", encProof ⟨[some ap], [some s], tb⟩)])
    (List.mem_cons_of_mem _ (List.mem_singleton.mpr rfl))

/-! ### honest answers -/

/-- a path of the directory does not crash the client, or it has more than 248 levels -/
theorem lookup_complete {C : Crypto} {p : PAD} {log : List STR} (inv : PadInv C p log) {n : Bytes} {ap : AuthPath}
    (h : p.lookup C n = some (some ap)) : (∃ l, Props.Complete ap l) ∨ 248 < ap.prunedTree.length := by
  have hs : p.latest ∈ log := inv.latest_mem
  have hlen : (C.vrfProve p.vrfKey n).1.length = 32 := C.vrf_length _ _
  obtain ⟨ap', q, pn, hget, post⟩ := get_spec C (8 * 32) p.latest.tree (inv.snap _ hs).inv (C.vrfProve p.vrfKey n).1
    (by rw [toBits_length, hlen])
  have hap : ap = { ap' with vrfProof := (C.vrfProve p.vrfKey n).2 } := by
    have : p.getSTR p.latest.core.epoch = some p.latest := by simp [PAD.getSTR]
    simp only [PAD.lookup, PAD.lookupInEpoch, this, hget, Option.map_some, Option.some.injEq] at h
    exact h.symm
  subst hap
  by_cases hd : 248 < ap'.prunedTree.length
  · exact .inr hd
  · left
    have hq := post.q_le (by rw [toBits_length, hlen])
    have hlev := post.level (by omega)
    refine ⟨pn, post.leaf, ?_, ?_, ?_, ?_⟩
    · rintro (he | he)
      · rcases post.cases with ⟨x, hx, _, rfl⟩ | ⟨_, x, hx, _, rfl⟩ | ⟨_, rfl, _⟩
        · rfl
        · rfl
        · simp [emptyPN] at he
      · rcases post.cases with ⟨x, hx, _, rfl⟩ | ⟨_, x, hx, _, rfl⟩ | ⟨hno, hpn, _⟩
        · rfl
        · rfl
        · exfalso
          have he' : toBytes q = (C.vrfProve p.vrfKey n).1 := by
            rw [hpn] at he
            exact he.trans post.lookup
          have hl := congrArg List.length he'
          rw [toBytes_length, hlen] at hl
          have := post.plen
          omega
    · rw [hlev, ← toBits_length]; exact post.index.length_le
    · show pn.level.toNat ≤ 8 * ap'.lookupIndex.length
      rw [hlev, post.lookup, ← toBits_length]; exact post.pre.length_le
    · show pn.level.toNat ≤ ap'.prunedTree.length
      rw [hlev, post.plen]; omega

theorem handled_error (e : ErrorCode) : Props.Handled (newErrorResponse e) := .empty e

theorem handled_single {ap : AuthPath} {s : STR} {tb : Option TB} {e : ErrorCode}
    (h : (∃ l, Props.Complete ap l) ∨ 248 < ap.prunedTree.length) :
    Props.Handled (newSingleProof ap s.toDir tb e) ∨ 8192 < (marshalResponse (newSingleProof ap s.toDir tb e)).length := by
  rcases h with ⟨l, hc⟩ | h
  · exact .inl (.proof e ap [] s.toDir [] tb l hc (by simp [STR.toDir]))
  · right
    have := answer_length ap s.toDir tb e
    omega

theorem lookup_handled {C : Crypto} {d : Directory} {log : List STR} (inv : PadInv C d.pad log) {req : KeyLookupRequest} {r : Response}
    (h : d.keyLookup C req = some r) : Props.Handled r ∨ 8192 < (marshalResponse r).length := by
  unfold Directory.keyLookup at h
  split at h
  · cases h; exact .inl (handled_error _)
  · split at h
    · cases h
    · cases h; exact .inl (handled_error _)
    · rename_i ap hap
      have hc := lookup_complete inv hap
      split at h
      · cases h
      · cases h; exact handled_single hc
      · split at h
        · cases h; exact handled_single hc
        · cases h; exact handled_single hc

theorem register_handled {C : Crypto} {d d' : Directory} {log : List STR} (inv : PadInv C d.pad log) {rnd : Option Bytes}
    {req : RegistrationRequest} {r : Response} (h : d.register C rnd req = some (d', r)) :
    Props.Handled r ∨ 8192 < (marshalResponse r).length := by
  unfold Directory.register at h
  split at h
  · cases h; exact .inl (handled_error _)
  · split at h
    · cases h
    · cases h; exact .inl (handled_error _)
    · rename_i ap hap
      have hc := lookup_complete inv hap
      split at h
      · cases h
      · cases h; exact handled_single hc
      · split at h
        · cases h; exact handled_single hc
        · simp only at h
          split at h
          · cases h
          · cases h; exact .inl (handled_error _)
          · cases h; exact handled_single hc

/-! ### the client's side -/

theorem afterRegister_total {C : Crypto} {r : Response} (hs : Sendable RegistrationType r)
    (h : Props.Handled r ∨ 8192 < (marshalResponse r).length) (cc : Client) (n k : Bytes) :
    ∃ y, cc.afterRegister C (.ok (clientRead (marshalResponse r))) n k = some y := by
  rw [afterRegister_sendable hs]
  split
  · rename_i hl
    rcases h with h | h
    · obtain ⟨y, hy⟩ := Props.C37_handle_total_partial C cc RegistrationType (.inl rfl) r h n (some k)
      rw [hy]; exact ⟨_, rfl⟩
    · omega
  · exact ⟨_, rfl⟩

theorem afterLookup_total {C : Crypto} {r : Response} (hs : Sendable KeyLookupType r)
    (h : Props.Handled r ∨ 8192 < (marshalResponse r).length) (cc : Client) (n : Bytes) :
    ∃ y, cc.afterLookup C (.ok (clientRead (marshalResponse r))) n = some y := by
  unfold Client.afterLookup clientRead
  dsimp only
  by_cases hl : (marshalResponse r).length ≤ 8192
  · rw [List.take_of_length_le hl]
    have := hs.roundtrip
    cases hu : unmarshalResponse KeyLookupType (marshalResponse r) with
    | none => rw [hu] at this; exact nomatch this
    | some w =>
      rw [hu] at this
      simp only [Option.map_some, Option.some.injEq] at this
      rw [Option.bind_some, this]
      rcases h with h | h
      · obtain ⟨y, hy⟩ := Props.C37_handle_total_partial C cc KeyLookupType (.inr rfl) r h n (cc.bindings n).join
        rw [hy]; exact ⟨_, rfl⟩
      · omega
  · rw [unmarshal_bad _ _ (take_marshal r hs.strs 8192 (by omega))]
    exact ⟨_, rfl⟩

/-! ### commands -/

theorem register_runs {C : Crypto} {N : Net} {conf : CliConf} (hu : N.scheme conf.reg ≠ none) (perms : Nat → Int → Bool) (rnd : Option Bytes)
    {d : Directory} {log : List STR} (inv : PadInv C d.pad log) (i : StdDir d) (cc : Client) {n : Bytes} (k : Bytes) (hn : Utf8 n) :
    ∃ x, cc.cliRegister C N conf perms rnd d n k = some x := by
  unfold Client.cliRegister Net.usable
  obtain ⟨s, hs⟩ := Option.ne_none_iff_exists'.mp hu
  rw [hs, Option.map_some, Option.bind_some]
  split
  · unfold exchange
    have hacc : ∃ x, acceptClient C goJson perms rnd d (N.listener conf.reg) ⟨createRegistrationMsg n (some k), false⟩ = some x ∧
        ∃ y, cc.afterRegister C (.ok (clientRead (replyBytes x.2))) n k = some y := by
      by_cases hl : (createRegistrationMsg n (some k)).length ≤ 8192
      · unfold acceptClient screen
        rw [read_short _ hl]
        dsimp only
        rw [request_registration, (clean_iff n).mpr hn]
        dsimp only
        simp only [checkRequestType]
        cases hp : perms (N.listener conf.reg) 0 with
        | false =>
          refine ⟨_, by simp only [Bool.not_false, if_true]; rfl, _, afterRegister_none (.inr rfl) n k⟩
        | true =>
          obtain ⟨⟨d', r⟩, hr⟩ := register_total inv rnd ⟨n, k⟩
          refine ⟨(d', some r), ?_, afterRegister_total (register_sendable i hr) (register_handled inv hr) cc n k⟩
          simp only [Bool.not_true, Bool.false_eq_true, if_false, Option.getD_some, handle_reg, hr, Option.map_some]
      · unfold acceptClient screen
        rw [read_long _ (by omega)]
        dsimp only
        rw [show unmarshalRequest goJson ((createRegistrationMsg n (some k)).take 8192) = none from
          request_cut RegistrationType _ (encRegistration_ok n (some k)).1 8192 (by unfold createRegistrationMsg at hl; omega)]
        exact ⟨_, rfl, _, afterRegister_none (.inr rfl) n k⟩
    obtain ⟨x, h1, y, h2⟩ := hacc
    rw [h1, Option.map_some, Option.bind_some]
    dsimp only
    rw [h2]
    exact ⟨_, rfl⟩
  · exact ⟨_, rfl⟩

theorem lookup_runs {C : Crypto} {N : Net} {conf : CliConf} (hu : N.scheme conf.address ≠ none) (perms : Nat → Int → Bool)
    {d : Directory} {log : List STR} (inv : PadInv C d.pad log) (i : StdDir d) (cc : Client) (n : Bytes) :
    ∃ x, cc.cliLookup C N conf perms d n = some x := by
  unfold Client.cliLookup Net.usable
  obtain ⟨s, hs⟩ := Option.ne_none_iff_exists'.mp hu
  rw [hs, Option.map_some, Option.bind_some]
  split
  · unfold exchange
    have hacc : ∃ x, acceptClient C goJson perms none d (N.listener conf.address) ⟨createKeyLookupMsg n, false⟩ = some x ∧
        ∃ y, cc.afterLookup C (.ok (clientRead (replyBytes x.2))) n = some y := by
      by_cases hl : (createKeyLookupMsg n).length ≤ 8192
      · unfold acceptClient screen
        rw [read_short _ hl]
        dsimp only
        rw [request_lookup]
        dsimp only
        simp only [checkRequestType]
        cases hp : perms (N.listener conf.address) 1 with
        | false =>
          refine ⟨_, by simp only [Bool.not_false, if_true]; rfl, _, afterLookup_none (.inr rfl) n⟩
        | true =>
          obtain ⟨r, hr⟩ := keyLookup_total inv ⟨clean n⟩
          refine ⟨(d, some r), ?_, afterLookup_total (lookup_sendable i hr) (lookup_handled inv hr) cc n⟩
          simp only [Bool.not_true, Bool.false_eq_true, if_false, handle_lookup, hr, Option.map_some]
      · unfold acceptClient screen
        rw [read_long _ (by omega)]
        dsimp only
        rw [show unmarshalRequest goJson ((createKeyLookupMsg n).take 8192) = none from
          request_cut KeyLookupType _ (encRegistration_ok n none).1 8192 (by unfold createKeyLookupMsg at hl; omega)]
        exact ⟨_, rfl, _, afterLookup_none (.inr rfl) n⟩
    obtain ⟨x, h1, y, h2⟩ := hacc
    rw [h1, Option.map_some, Option.bind_some]
    dsimp only
    rw [h2]
    exact ⟨_, rfl⟩
  · exact ⟨_, rfl⟩

end Coniks

/-! ### sessions -/
namespace Coniks
open Spec Json

theorem cliRegister_dir {C : Crypto} {N : Net} {conf : CliConf} {perms : Nat → Int → Bool} {rnd : Option Bytes} {d d' : Directory} {cc cc' : Client}
    {n k text : Bytes} (i : StdDir d) (hn : Utf8 n) (h : cc.cliRegister C N conf perms rnd d n k = some (d', cc', text)) :
    d' = d ∨ ∃ resp, d.register C rnd ⟨n, k⟩ = some (d', resp) := by
  unfold Client.cliRegister at h
  obtain ⟨ok, _, h⟩ := Option.bind_eq_some_iff.mp h
  cases ok with
  | false => simp only [Bool.false_eq_true, if_false, Option.some.injEq, Prod.mk.injEq] at h; exact .inl h.1.symm
  | true =>
    simp only [if_true] at h
    obtain ⟨⟨d2, b⟩, hx, h⟩ := Option.bind_eq_some_iff.mp h
    obtain ⟨y, _, h⟩ := Option.map_eq_some_iff.mp h
    simp only [Prod.mk.injEq] at h
    obtain ⟨rfl, _, _⟩ := h
    unfold exchange at hx
    obtain ⟨⟨d3, r⟩, hx2, h⟩ := Option.map_eq_some_iff.mp hx
    simp only [Prod.mk.injEq] at h
    obtain ⟨rfl, _⟩ := h
    exact (accept_register i hn hx2).2

theorem dirAfter_step {C : Crypto} {t0 : UInt64} {sk vk : Bytes} {size : Nat} {r₁ r₂ : Bytes} {ops : List DirOp} {d d' : Directory}
    {log : List STR} (h : dirAfter C t0 sk vk size r₁ r₂ ops = some (d, log)) {op : DirOp} {r : Option Response}
    (hs : d.step C op = some (d', r)) : ∃ log', dirAfter C t0 sk vk size r₁ r₂ (ops ++ [op]) = some (d', log') := by
  rw [dirAfter_append, h]
  simp only [Option.bind_some, Directory.runLog, hs]
  exact ⟨_, rfl⟩

theorem safe_run (C : Crypto) (t0 : UInt64) (sk vk : Bytes) (size : Nat) (r₁ r₂ : Bytes) (N : Net) (conf : CliConf)
    (h1 : N.scheme conf.reg ≠ none) (h2 : N.scheme conf.address ≠ none) (perms : Nat → Int → Bool) :
    ∀ (evs : List NetEvent) (ops : List DirOp) (d : Directory) (log : List STR) (cc : Client) (ts : Bool),
      dirAfter C t0 sk vk size r₁ r₂ ops = some (d, log) → dirUpdates ops + netUpdates evs < 2 ^ 64 →
      (∀ req, NetEvent.dir (.getSTRHistory req) ∉ evs) → ∃ x, replOver C N conf perms d cc ts evs = some x
  | [], _, d, _, cc, _, _, _, _ => ⟨_, rfl⟩
  | .dir op :: evs, ops, d, log, cc, ts, h, hlt, hn => by
    obtain ⟨inv, _⟩ := dirAfter_padInv C t0 sk vk size r₁ r₂ ops (by omega) d log h
    have hstep : ∃ x, d.step C op = some x := by
      cases hx : d.step C op with
      | some x => exact ⟨x, rfl⟩
      | none =>
        obtain ⟨req, rfl, _⟩ := (step_panics_iff inv op).mp hx
        exact absurd List.mem_cons_self (hn req)
    obtain ⟨⟨d', r⟩, hx⟩ := hstep
    obtain ⟨log', h'⟩ := dirAfter_step h hx
    have hlt' : dirUpdates (ops ++ [op]) + netUpdates evs < 2 ^ 64 := by
      rw [dirUpdates_append]
      cases op <;> simp only [netUpdates, dirUpdates] at hlt ⊢ <;> omega
    obtain ⟨y, hy⟩ := safe_run C t0 sk vk size r₁ r₂ N conf h1 h2 perms evs _ d' log' cc ts h' hlt' (fun req hm => hn req (List.mem_cons_of_mem _ hm))
    refine ⟨y, ?_⟩
    simp only [replOver, hx, Option.bind_some]
    exact hy
  | .ended err :: evs, _, d, _, cc, ts, _, _, _ => ⟨_, rfl⟩
  | .line rnd l T :: evs, ops, d, log, cc, ts, h, hlt, hn => by
    obtain ⟨inv, _⟩ := dirAfter_padInv C t0 sk vk size r₁ r₂ ops (by omega) d log h
    have i := after_std h
    have hn' : ∀ req, NetEvent.dir (.getSTRHistory req) ∉ evs := fun req hm => hn req (List.mem_cons_of_mem _ hm)
    have hlt' : dirUpdates ops + netUpdates evs < 2 ^ 64 := hlt
    cases hc : command (fields l) with
    | register n k =>
      have hu := (command_register hc).1
      have hreg : ∃ d' cc' t, cc.cliRegisterOver C N conf perms rnd T d n k = some (d', cc', t) ∧
          (d' = d ∨ ∃ resp, d.register C rnd ⟨n, k⟩ = some (d', resp)) := by
        rcases registerOver_cases N conf perms rnd T i cc k hu with e | ⟨_, d', text, e, hd⟩
        · obtain ⟨⟨d', cc', t⟩, hx⟩ := register_runs h1 perms rnd inv i cc k hu
          exact ⟨d', cc', t, e.trans hx, cliRegister_dir i hu hx⟩
        · exact ⟨d', cc, _, e, hd⟩
      obtain ⟨d', cc', t, hx, hd⟩ := hreg
      have hnext : ∃ ops' log', dirAfter C t0 sk vk size r₁ r₂ ops' = some (d', log') ∧ dirUpdates ops' = dirUpdates ops := by
        rcases hd with rfl | ⟨resp, hr⟩
        · exact ⟨ops, log, h, rfl⟩
        · obtain ⟨log', h'⟩ := dirAfter_step (op := .register rnd ⟨n, k⟩) (r := some resp) h (d' := d') (by simp only [Directory.step, hr, Option.map_some])
          exact ⟨_, log', h', by rw [dirUpdates_append]; rfl⟩
      obtain ⟨ops', log', h', hu'⟩ := hnext
      obtain ⟨y, hy⟩ := safe_run C t0 sk vk size r₁ r₂ N conf h1 h2 perms evs ops' d' log' cc' ts h' (by rw [hu']; exact hlt') hn'
      simp only [replOver, hc, hx, Option.bind_some, hy]
      exact ⟨_, rfl⟩
    | lookup n =>
      have hlk : ∃ cc' t, cc.cliLookupOver C N conf perms T d n = some (d, cc', t) := by
        rcases lookupOver_cases N conf perms T i cc n with e | ⟨_, text, e⟩
        · obtain ⟨⟨d', cc', t⟩, hx⟩ := lookup_runs h2 perms inv i cc n
          have := cliLookup_same i hx
          exact ⟨cc', t, by rw [e, hx, this]⟩
        · exact ⟨cc, _, e⟩
      obtain ⟨cc', t, hx⟩ := hlk
      obtain ⟨y, hy⟩ := safe_run C t0 sk vk size r₁ r₂ N conf h1 h2 perms evs ops d log cc' ts h hlt' hn'
      simp only [replOver, hc, hx, Option.bind_some, hy]
      exact ⟨_, rfl⟩
    | exit => simp only [replOver, hc]; exact ⟨_, rfl⟩
    | _ =>
      simp only [replOver, hc]
      obtain ⟨y, hy⟩ := safe_run C t0 sk vk size r₁ r₂ N conf h1 h2 perms evs ops d log cc _ h hlt' hn'
      rw [hy]
      exact ⟨_, rfl⟩

end Coniks
