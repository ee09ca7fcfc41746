import Verif.Spec.Owner
import Verif.Proofs.Desk
import Verif.Proofs.Lockout
import Verif.Props.BotRun
/-
Direct messages, key servers and client programs on one machine (C91).
-/
namespace Coniks
open Spec Json Props ListenProofs

/-! ### what a terminal prints as found was in the directory -/

/-- a successful lookup shows a key, or its answer is too long for a client -/
theorem lookup_shows {C : Crypto} {d : Directory} {log : List STR} (inv : PadInv C d.pad log) {req : KeyLookupRequest} {r : Response}
    (h : d.keyLookup C req = some r) (he : r.error = ReqSuccess) : keysShown r ≠ [] ∨ 8192 < (marshalResponse r).length := by
  unfold Directory.keyLookup at h
  split at h
  · cases h; exact absurd he (by decide)
  · split at h
    · cases h
    · cases h; exact absurd he (by decide)
    · rename_i ap hap
      split at h
      · cases h
      · rename_i hf
        cases h
        have hs : d.pad.latest ∈ log := inv.latest_mem
        have hlen : (C.vrfProve d.pad.vrfKey req.username).1.length = 32 := C.vrf_length _ _
        obtain ⟨ap', q, pn, hget, post⟩ := get_spec C (8 * 32) d.pad.latest.tree (inv.snap _ hs).inv (C.vrfProve d.pad.vrfKey req.username).1
          (by rw [toBits_length, hlen])
        have hap' : ap = { ap' with vrfProof := (C.vrfProve d.pad.vrfKey req.username).2 } := by
          have : d.pad.getSTR d.pad.latest.core.epoch = some d.pad.latest := by simp [PAD.getSTR]
          simp only [PAD.lookup, PAD.lookupInEpoch, this, hget, Option.map_some, Option.some.injEq] at hap
          exact hap.symm
        subst hap'
        by_cases hd : 248 < ap'.prunedTree.length
        · right
          have := answer_length { ap' with vrfProof := (C.vrfProve d.pad.vrfKey req.username).2 } d.latestSTR none ReqSuccess
          dsimp only at this
          omega
        · left
          have hidx : ap'.lookupIndex = pn.index := by
            have := hf
            simp only [AuthPath.found, post.leaf, Option.map_some, Option.some.injEq, beq_iff_eq] at this
            exact this
          have shown : ∀ v, pn.value = some v → keysShown (newSingleProof { ap' with vrfProof := (C.vrfProve d.pad.vrfKey req.username).2 } d.latestSTR none ReqSuccess)
              ≠ [] := by
            intro v hv
            simp [keysShown, newSingleProof, post.leaf, hv]
          rcases post.cases with ⟨x, _, _, rfl⟩ | ⟨_, x, _, hx, rfl⟩ | ⟨hno, hpn, _⟩
          · exact shown _ rfl
          · exact absurd (show x.index = _ from (hidx.symm.trans post.lookup)) hx
          · exfalso
            have he' : toBytes q = (C.vrfProve d.pad.vrfKey req.username).1 := by
              rw [hpn] at hidx
              exact hidx.symm.trans post.lookup
            have hl := congrArg List.length he'
            rw [toBytes_length, hlen] at hl
            have := post.plen
            omega
      · split at h
        · cases h; left; simp [keysShown, newSingleProof]
        · cases h; exact absurd (show ReqNameNotFound = ReqSuccess from he) (by decide)

theorem found_not_error {x y : Bytes} (h : ascii "Found!" ++ x = ascii "Error" ++ y) : False := by
  have e1 : (ascii "Found!").head? = some 70 := by decide +kernel
  have e2 : (ascii "Error").head? = some 69 := by decide +kernel
  have := congrArg List.head? h
  rw [List.head?_append, List.head?_append, e1, e2] at this
  simp at this

theorem lookupText_found {err : Option ErrorCode} {code : ErrorCode} {recv : Option Bytes} {x : Bytes}
    (h : lookupText err code recv = ascii "Found!" ++ x) : err = none ∧ code = ReqSuccess := by
  cases err with
  | some e =>
    obtain ⟨y, hy⟩ := lookupText_error e code recv
    exact (found_not_error (h.symm.trans hy)).elim
  | none =>
    refine ⟨rfl, ?_⟩
    have e1 : (ascii "Found!").head? = some 70 := by decide +kernel
    have e2 : (ascii "Name isn't registered.").head? = some 78 := by decide +kernel
    unfold lookupText at h
    dsimp only at h
    split at h
    · assumption
    · split at h
      · have := congrArg List.head? h
        rw [List.head?_append, e1, e2] at this
        simp at this
      · have := congrArg List.head? h
        rw [List.head?_append, e1] at this
        simp at this

theorem afterLookup_found {C : Crypto} {cc cc' : Client} {r : Response} (hs : Sendable KeyLookupType r) {n t x : Bytes}
    (h : cc.afterLookup C (.ok (clientRead (marshalResponse r))) n = some (cc', t)) (ht : t = ascii "Found!" ++ x) :
    r.error = ReqSuccess ∧ (marshalResponse r).length ≤ 8192 := by
  unfold Client.afterLookup clientRead at h
  dsimp only at h
  by_cases hl : (marshalResponse r).length ≤ 8192
  · rw [List.take_of_length_le hl] at h
    have := hs.roundtrip
    cases hu : unmarshalResponse KeyLookupType (marshalResponse r) with
    | none => rw [hu] at this; exact nomatch this
    | some w =>
      rw [hu] at this h
      simp only [Option.map_some, Option.some.injEq] at this
      rw [Option.bind_some] at h
      obtain ⟨y, hy, e⟩ := Option.map_eq_some_iff.mp h
      cases e
      have hw : w.error = r.error := by rw [← this]; rfl
      exact ⟨hw ▸ (lookupText_found ht).2, hl⟩
  · rw [unmarshal_bad _ _ (take_marshal r hs.strs 8192 (by omega)), Option.bind_some] at h
    obtain ⟨y, hy, e⟩ := Option.map_eq_some_iff.mp h
    cases e
    exact absurd (lookupText_found ht).2 (by decide)

/-- if the client program says that it has found a key, the directory shows one -/
theorem lookupOver_found {C : Crypto} {N : Net} {conf : CliConf} {perms : Nat → Int → Bool} {T : Transfer} {d : Directory}
    {log : List STR} (inv : PadInv C d.pad log) (i : StdDir d) {cc : Client} {n : Bytes} (hn : Utf8 n) {d' : Directory} {cc' : Client} {x : Bytes}
    (hc : cc.cliLookupOver C N conf perms T d n = some (d', cc', ascii "Found!" ++ x)) :
    ∃ r, d.keyLookup C ⟨n⟩ = some r ∧ keysShown r ≠ [] := by
  rcases lookupOver_cases N conf perms T i cc n with e | ⟨_, text, e⟩
  · rw [hc] at e
    have e := e.symm
    unfold Client.cliLookup exchange at e
    cases hu : N.usable conf.address with
    | none => rw [hu] at e; cases e
    | some ok =>
      rw [hu, Option.bind_some] at e
      cases ok with
      | false =>
        rw [if_neg Bool.false_ne_true] at e
        simp only [Option.some.injEq, Prod.mk.injEq] at e
        have e1 : (ascii "Found!").head? = some 70 := by decide +kernel
        have e2 : (ascii "Invalid config!").head? = some 73 := by decide +kernel
        have := congrArg List.head? e.2.2
        rw [List.head?_append, e1, e2] at this
        simp at this
      | true =>
        rw [if_pos rfl] at e
        have done : ∀ y, acceptClient C goJson perms none d (N.listener conf.address) ⟨createKeyLookupMsg n, false⟩ = some y →
            (∀ c', cc.afterLookup C (.ok (clientRead (replyBytes y.2))) n = some (c', ascii "Found!" ++ x) →
              ∃ r, d.keyLookup C ⟨n⟩ = some r ∧ keysShown r ≠ []) →
            ∃ r, d.keyLookup C ⟨n⟩ = some r ∧ keysShown r ≠ [] := by
          intro y hy hh
          rw [hy, Option.map_some, Option.bind_some] at e
          obtain ⟨z, hz, e⟩ := Option.map_eq_some_iff.mp e
          obtain ⟨z1, z2⟩ := z
          simp only [Prod.mk.injEq] at e
          obtain ⟨_, _, rfl⟩ := e
          exact hh z1 hz
        have bad : ∀ r, (r = none ∨ r = some (newErrorResponse ErrMalformedMessage)) → ∀ c',
            cc.afterLookup C (.ok (clientRead (replyBytes r))) n = some (c', ascii "Found!" ++ x) →
            ∃ r, d.keyLookup C ⟨n⟩ = some r ∧ keysShown r ≠ [] := by
          intro r hr c' hh
          rw [afterLookup_none hr n, error_text2] at hh
          simp only [Option.some.injEq, Prod.mk.injEq] at hh
          exact (found_not_error hh.2.symm).elim
        by_cases hl : (createKeyLookupMsg n).length ≤ 8192
        · cases hp : perms (N.listener conf.address) 1 with
          | false =>
            refine done (d, some (newErrorResponse ErrMalformedMessage)) ?_ (bad _ (.inr rfl))
            unfold acceptClient screen
            rw [read_short _ hl]
            dsimp only
            rw [request_lookup]
            simp only [checkRequestType, hp, Bool.not_false, if_true]
            rfl
          | true =>
            obtain ⟨r, hr⟩ := keyLookup_total inv ⟨clean n⟩
            refine done (d, some r) ?_ fun c' hh => ?_
            · unfold acceptClient screen
              rw [read_short _ hl]
              dsimp only
              rw [request_lookup]
              simp only [checkRequestType, hp, Bool.not_true, Bool.false_eq_true, if_false, handle_lookup, hr, Option.map_some]
            · obtain ⟨h1, h2⟩ := afterLookup_found (lookup_sendable i hr) hh rfl
              rw [(clean_iff n).mpr hn] at hr
              refine ⟨r, hr, ?_⟩
              rcases lookup_shows inv hr h1 with h | h
              · exact h
              · omega
        · refine done (d, some (newErrorResponse ErrMalformedMessage)) ?_ (bad _ (.inr rfl))
          unfold acceptClient screen
          rw [read_long _ (by omega)]
          dsimp only
          rw [show unmarshalRequest goJson ((createKeyLookupMsg n).take 8192) = none from
            request_cut KeyLookupType _ (encRegistration_ok n none).1 8192 (by unfold createKeyLookupMsg at hl; omega)]
          rfl
  · rw [hc] at e
    simp only [Option.some.injEq, Prod.mk.injEq] at e
    exact (found_not_error e.2.2).elim

/-! ### the bot's view of one process -/

/-- the sessions of the terminals do not concern the directory, except for registrations, which are connections -/
theorem registerOver_bot {C : Crypto} {N : Net} {conf : CliConf} {perms : Nat → Int → Bool} {rnd : Option Bytes} {T : Transfer} {d d' : Directory}
    {cc cc' : Client} {n k text : Bytes} (h : cc.cliRegisterOver C N conf perms rnd T d n k = some (d', cc', text)) :
    d' = d ∨ ∃ c r, acceptClient C goJson perms rnd d (N.listener conf.reg) c = some (d', r) := by
  unfold Client.cliRegisterOver at h
  obtain ⟨ok, _, h⟩ := Option.bind_eq_some_iff.mp h
  split at h
  · obtain ⟨x, hx, h⟩ := Option.bind_eq_some_iff.mp h
    obtain ⟨y, _, e⟩ := Option.map_eq_some_iff.mp h
    cases e
    cases T with
    | noDial e => cases hx; exact .inl rfl
    | carried a bad m err =>
      obtain ⟨z, hz, e⟩ := Option.map_eq_some_iff.mp hx
      cases e
      exact .inr ⟨_, z.2, hz⟩
  · cases h; exact .inl rfl

/-- what one event of the machine means for the directory of one process, terminals included -/
theorem desk_step_project (C : Crypto) (X : Text) (M : Machine) (cwd : Place) (c : TwitterConfig) (pid : Nat) (addrs : List AddressToml) (P : Place)
    (hP : locate cwd c.coniksAddress = P) (hnd : (addrs.map AddressToml.ptr).Nodup) (a₀ : AddressToml) (ha₀ : a₀ ∈ addrs) (ask₀ : AsksFor M a₀ (.unix P))
    (uniq : ∀ a ∈ addrs, AsksFor M a (.unix P) → a = a₀) (e : DeskEv) (D D' : Desk) (d : Directory) (i : StdDir d) (I : HostInv M pid addrs D.host.os)
    (hd : D.host.server pid = some ⟨d, addrs⟩) (hsp : ∀ e', e = .host e' → SparesProc pid e') (only : BotOnly M P D [e])
    (hs : D.step C X M cwd c e = some D') :
    ∃ es d', D'.host.server pid = some ⟨d', addrs⟩ ∧ (∀ rnd k, BotEv.conn a₀.ptr rnd k ∉ es) ∧ botUpdates es ≤ deskEpochs [e] ∧
      (∀ m sent, (m, sent) ∈ messages es → m ∈ directMessages (machineEvents [e])) ∧
      ∀ w : BotWorld, w.dir = d → ∃ w', w.run C X (permsMap (addrs.map fun a => ⟨a.ptr, a.allowRegistration⟩)) ⟨c.handle, a₀.ptr⟩ es = some w' ∧
        w'.dir = d' := by
  have quiet : D'.host.server pid = some ⟨d, addrs⟩ → ∃ es d', D'.host.server pid = some ⟨d', addrs⟩ ∧ (∀ rnd k, BotEv.conn a₀.ptr rnd k ∉ es) ∧
      botUpdates es ≤ deskEpochs [e] ∧ (∀ m sent, (m, sent) ∈ messages es → m ∈ directMessages (machineEvents [e])) ∧
      ∀ w : BotWorld, w.dir = d → ∃ w', w.run C X (permsMap (addrs.map fun a => ⟨a.ptr, a.allowRegistration⟩)) ⟨c.handle, a₀.ptr⟩ es = some w' ∧
        w'.dir = d' := fun hq =>
    ⟨[], d, hq, fun _ _ h => (nomatch h), Nat.zero_le _, fun _ _ h => (nomatch h), fun w hw => ⟨w, rfl, hw⟩⟩
  have oth : ∀ (q : Nat) (r : Option Running), q ≠ pid → (D.host.set q r).server pid = D.host.server pid := fun q r hq => if_neg (fun e => hq e.symm)
  have set : ∀ (q : Nat) (r : Option Running), q = pid → (D.host.set q r).server pid = r := fun q r hq => if_pos hq.symm
  cases e with
  | host e =>
    simp only [Desk.step] at hs
    obtain ⟨h', hx, rfl⟩ := Option.map_eq_some_iff.mp hs
    obtain ⟨es, d', k1, k2, k3, k4, k5⟩ := host_step_project C X M cwd c pid addrs P hP hnd a₀ ha₀ ask₀ uniq e D.host h' d I hd (hsp e rfl)
      (fun address rnd k he => only.conns address rnd k (he ▸ List.mem_singleton.mpr rfl)) hx
    refine ⟨es, d', k1, k2, ?_, k4, k5⟩
    have : hostEpochs [e] = deskEpochs [.host e] := by cases e <;> rfl
    omega
  | opened v k debug =>
    simp only [Desk.step, Desk.open] at hs
    obtain ⟨cc, _, rfl⟩ := Option.map_eq_some_iff.mp hs
    exact quiet hd
  | ended v err =>
    simp only [Desk.step, Option.some.injEq] at hs
    refine quiet ?_
    rw [← hs]; split <;> exact hd
  | line v rnd l T refused =>
    simp only [Desk.step, Desk.type] at hs
    split at hs
    · cases hs; exact quiet hd
    · split at hs
      · rename_i n k hc
        split at hs
        · rename_i s r ha
          obtain ⟨⟨d', cc', text⟩, hx, rfl⟩ := Option.map_eq_some_iff.mp hs
          unfold Host.answering at ha
          obtain ⟨s', hdial, ha⟩ := Option.bind_eq_some_iff.mp ha
          obtain ⟨r', hr', he⟩ := Option.map_eq_some_iff.mp ha
          cases he
          by_cases hq : s.pid = pid
          · rw [hq, hd] at hr'
            cases hr'
            have hsame : (D.host.set s.pid (some ⟨d', addrs⟩)).server pid = some ⟨d', addrs⟩ := set _ _ hq
            have hl : (D.host.os.net M s.ptr).listener (D.terms v).conf.reg = s.ptr := by
              show (match D.host.os.dial M (D.terms v).conf.reg with | some s => s.ptr | none => s.ptr) = s.ptr
              rw [hdial]
            rcases registerOver_bot hx with rfl | ⟨cn, y, hy⟩
            · exact quiet hsame
            · rw [hl] at hy
              refine ⟨[.conn s.ptr rnd cn], d', hsame, ?_, Nat.zero_le _, fun _ _ h => (nomatch h), ?_⟩
              · intro rnd' k' hmem
                simp only [List.mem_singleton, BotEv.conn.injEq] at hmem
                obtain ⟨b, hm, hlead, _⟩ := (dial_iff I.os (D.terms v).conf.reg s).mp hdial
                obtain ⟨a, ha, hptr, hask⟩ := I.entry _ hm hq
                have : a = a₀ := nodup_ptr hnd ha ha₀ (hptr.trans hmem.1.symm)
                subst this
                have hb : b = .unix P := asks_unique hask ask₀
                rw [hb] at hlead
                exact only.open_ v hlead
              · rintro w rfl
                simp only [BotWorld.run, BotWorld.step]
                rw [hy]
                exact ⟨_, rfl, rfl⟩
          · exact quiet ((oth _ _ hq).trans hd)
        · obtain ⟨x, _, rfl⟩ := Option.map_eq_some_iff.mp hs
          exact quiet hd
      · split at hs
        · rename_i s r ha
          obtain ⟨⟨d', cc', text⟩, hx, rfl⟩ := Option.map_eq_some_iff.mp hs
          unfold Host.answering at ha
          obtain ⟨s', hdial, ha⟩ := Option.bind_eq_some_iff.mp ha
          obtain ⟨r', hr', he⟩ := Option.map_eq_some_iff.mp ha
          cases he
          by_cases hq : s.pid = pid
          · rw [hq, hd] at hr'
            cases hr'
            have hdd := lookupOver_dir i hx
            subst hdd
            exact quiet (set _ _ hq)
          · exact quiet ((oth _ _ hq).trans hd)
        · obtain ⟨x, _, rfl⟩ := Option.map_eq_some_iff.mp hs
          exact quiet hd
      · cases hs; exact quiet hd
      · cases hs; exact quiet hd

theorem machineEvents_cons (e : DeskEv) (es : List DeskEv) : machineEvents (e :: es) = machineEvents [e] ++ machineEvents es := by
  cases e <;> rfl

theorem directMessages_append : ∀ (es es' : List HostEv), directMessages (es ++ es') = directMessages es ++ directMessages es'
  | [], _ => rfl
  | e :: es, es' => by
    rw [List.cons_append, directMessages_cons, directMessages_append es es', directMessages_cons e es, List.append_assoc]

theorem epochsOf_le (pid : Nat) : ∀ (es : List DeskEv), epochsOf pid es ≤ deskEpochs es
  | [] => Nat.le_refl _
  | e :: es => by
    rw [epochsOf_cons, deskEpochs_cons]
    have := epochsOf_le pid es
    have h1 : epochsOf pid [e] ≤ deskEpochs [e] := by
      cases e with
      | host e =>
        cases e <;> first
          | exact Nat.le_refl _
          | (simp only [epochsOf, deskEpochs]; split <;> omega)
      | _ => exact Nat.le_refl _
    omega

/-- a terminal keeps its configuration unless a new program is started there -/
theorem desk_step_conf (C : Crypto) (X : Text) (M : Machine) (cwd : Place) (c : TwitterConfig) (u : Nat) (e : DeskEv) (D D' : Desk)
    (hs : D.step C X M cwd c e = some D') : (D'.terms u).conf = (D.terms u).conf ∨
      ∃ k debug, e = .opened u k debug ∧ (D'.terms u).conf = ⟨k.regAddress, k.address⟩ := by
  have put : ∀ (D : Desk) (v : Nat) (t : Terminal), t.conf = (D.terms v).conf → ((D.put v t).terms u).conf = (D.terms u).conf := by
    intro D v t ht
    show (if u = v then t else D.terms u).conf = _
    split
    · rename_i h; rw [h]; exact ht
    · rfl
  cases e with
  | host e =>
    simp only [Desk.step] at hs
    obtain ⟨h', hx, rfl⟩ := Option.map_eq_some_iff.mp hs
    exact .inl rfl
  | opened v k debug =>
    simp only [Desk.step, Desk.open] at hs
    obtain ⟨cc, _, rfl⟩ := Option.map_eq_some_iff.mp hs
    by_cases h : u = v
    · subst h; exact .inr ⟨k, debug, rfl, by rw [desk_put_same]⟩
    · left
      show (if u = v then _ else D.terms u).conf = _
      rw [if_neg h]
  | ended v err =>
    simp only [Desk.step, Option.some.injEq] at hs
    left
    rw [← hs]
    split
    · rfl
    · exact put _ _ _ rfl
  | line v rnd l T refused =>
    left
    simp only [Desk.step, Desk.type] at hs
    split at hs
    · cases hs; rfl
    · split at hs
      · split at hs
        · obtain ⟨y, _, rfl⟩ := Option.map_eq_some_iff.mp hs; exact put _ _ _ rfl
        · obtain ⟨y, _, rfl⟩ := Option.map_eq_some_iff.mp hs; exact put _ _ _ rfl
      · split at hs
        · obtain ⟨y, _, rfl⟩ := Option.map_eq_some_iff.mp hs; exact put _ _ _ rfl
        · obtain ⟨y, _, rfl⟩ := Option.map_eq_some_iff.mp hs; exact put _ _ _ rfl
      · cases hs; exact put _ _ _ rfl
      · cases hs; exact put _ _ _ rfl

/-- what a history of the machine means for the directory of one process, terminals included -/
theorem desk_project (C : Crypto) (X : Text) (M : Machine) (cwd : Place) (c : TwitterConfig) (pid : Nat) (addrs : List AddressToml) (P : Place)
    (hP : locate cwd c.coniksAddress = P) (hnd : (addrs.map AddressToml.ptr).Nodup) (a₀ : AddressToml) (ha₀ : a₀ ∈ addrs) (ask₀ : AsksFor M a₀ (.unix P))
    (uniq : ∀ a ∈ addrs, AsksFor M a (.unix P) → a = a₀) {t0 : UInt64} {sk vk : Bytes} {size : Nat} {r₁ r₂ : Bytes} :
    ∀ (evs : List DeskEv) (D D' : Desk) (d : Directory) (m : Nat), GrownBy C t0 sk vk size r₁ r₂ m d → HostInv M pid addrs D.host.os →
    D.host.server pid = some ⟨d, addrs⟩ → (∀ e, .host e ∈ evs → SparesProc pid e) → BotOnly M P D evs → D.run C X M cwd c evs = some D' →
    ∃ es d', D'.host.server pid = some ⟨d', addrs⟩ ∧ (∀ rnd k, BotEv.conn a₀.ptr rnd k ∉ es) ∧ botUpdates es ≤ deskEpochs evs ∧
      (∀ m sent, (m, sent) ∈ messages es → m ∈ directMessages (machineEvents evs)) ∧
      ∀ w : BotWorld, w.dir = d → ∃ w', w.run C X (permsMap (addrs.map fun a => ⟨a.ptr, a.allowRegistration⟩)) ⟨c.handle, a₀.ptr⟩ es = some w' ∧
        w'.dir = d'
  | [], D, D', d, _, _, _, hd, _, _, hr => by
    cases hr
    exact ⟨[], d, hd, fun _ _ h => (nomatch h), Nat.le_refl _, fun _ _ h => (nomatch h), fun w hw => ⟨w, rfl, hw⟩⟩
  | e :: evs, D, D', d, m, g, I, hd, hsp, only, hr => by
    simp only [Desk.run] at hr
    obtain ⟨D1, hs, hr⟩ := Option.bind_eq_some_iff.mp hr
    obtain ⟨es, d1, k1, k2, k3, k4, k5⟩ := desk_step_project C X M cwd c pid addrs P hP hnd a₀ ha₀ ask₀ uniq e D D1 d g.grown.std I hd
      (fun e' he => hsp e' (he ▸ .head _))
      ⟨fun address rnd k he => only.conns address rnd k (by rw [List.mem_singleton] at he; rw [he]; exact .head _), only.open_,
        fun u k debug he => only.later u k debug (by rw [List.mem_singleton] at he; rw [he]; exact .head _)⟩ hs
    have I1 : HostInv M pid addrs D1.host.os := by
      rcases desk_step_os C X M cwd c D D1 e hs with e' | ⟨e₀, e', he, e2, e3, _⟩
      · rw [e']; exact I
      · rw [e2]; exact hostInv_step I e' (e3 pid (hsp e₀ (he ▸ .head _)))
    obtain ⟨d2, j1, j2⟩ := desk_step_grown C X M cwd c pid addrs e D D1 d g hd (fun e' h => hsp e' (h ▸ .head _)) hs
    have hdd : d2 = d1 := by
      rw [k1] at j1
      simp only [Option.some.injEq, Running.mk.injEq] at j1
      exact j1.1.symm
    subst hdd
    have only1 : BotOnly M P D1 evs := by
      refine ⟨fun address rnd k hm => only.conns address rnd k (.tail _ hm), ?_, fun u k debug hm => only.later u k debug (.tail _ hm)⟩
      intro u
      rcases desk_step_conf C X M cwd c u e D D1 hs with h | ⟨k, debug, he, h⟩
      · rw [h]; exact only.open_ u
      · rw [h]; exact only.later u k debug (he ▸ .head _)
    obtain ⟨es', d', m1, m2, m3, m4, m5⟩ := desk_project C X M cwd c pid addrs P hP hnd a₀ ha₀ ask₀ uniq evs D1 D' d2 _ j2 I1 k1
      (fun e' he' => hsp e' (.tail _ he')) only1 hr
    refine ⟨es ++ es', d', m1, ?_, ?_, ?_, ?_⟩
    · intro rnd k hm
      rcases List.mem_append.mp hm with hm | hm
      · exact k2 rnd k hm
      · exact m2 rnd k hm
    · rw [botUpdates_append, deskEpochs_cons]; omega
    · intro m sent hm
      rw [messages_append] at hm
      rw [machineEvents_cons, directMessages_append]
      rcases List.mem_append.mp hm with hm | hm
      · exact List.mem_append_left _ (k4 m sent hm)
      · exact List.mem_append_right _ (m4 m sent hm)
    · intro w hw
      obtain ⟨w1, g1, g2⟩ := k5 w hw
      obtain ⟨w2, g3, g4⟩ := m5 w1 g2
      exact ⟨w2, by rw [bot_run_append, g1]; exact g3, g4⟩

end Coniks
