import Verif.Spec.Cli
import Verif.Proofs.Session
import Verif.Proofs.Wire
/-
The command-line client (C64).
-/
namespace Coniks
open Spec Json

theorem answers_code {C : Crypto} {sk vk n : Bytes} {str : DirSTR} {r : Response} {a : ErrorCode × Option Bytes × Option Bytes}
    (h : Answers C sk vk n str r a) : r.error = a.1 := by
  unfold Answers at h
  split at h
  · rw [h]
  · obtain ⟨ap, hr, _⟩ := h
    rw [hr]

theorem talk_run (C : Crypto) (sk vk : Bytes) (ns : List Bytes) (inj : IndexInj (fun k => (C.vrfProve vk k).1) ns)
    (spread : IndexSpread (fun k => (C.vrfProve vk k).1) ns) (ops : List SesOp) : ∀ d log A cc lag,
    SesInv C sk vk ns d log A cc lag → (∀ n ∈ sesNames ops, n ∈ ns) → (∀ n ∈ ownNames ops, C.vrfUsable n = true) → KeepsUp lag A ops →
    log.length + dirUpdates (ops.map SesOp.dirOp) ≤ 2 ^ 64 → ∀ d' log', d.runLog C log (ops.map SesOp.dirOp) = some (d', log') →
    ∃ cc', runTalk C d cc ops = some (d', cc', talks A ops) := by
  induction ops with
  | nil =>
    intro d log A cc lag i _ _ _ _ d' log' h
    simp only [List.map_nil, Directory.runLog, Option.some.injEq, Prod.mk.injEq] at h
    exact ⟨cc, by simp [runTalk, talks, h.1]⟩
  | cons op ops ih =>
    intro d log A cc lag i hns hown hk hlen d' log' h
    rw [List.map_cons] at h hlen
    rw [dirUpdates_cons] at hlen
    obtain ⟨d1, r, h1, h2⟩ := runLog_cons_some h
    have hil : (log ++ op.dirOp.issued d1).length = log.length + dirUpdates [op.dirOp] := by simp [issued_length]
    have hnames : ∀ n ∈ regNames [op.dirOp], n ∈ ns := by
      intro n hn
      apply hns
      cases op with
      | lookup n key => simp [SesOp.dirOp, regNames] at hn
      | dir op => simp only [sesNames]; exact List.mem_append_left _ hn
      | register rnd n k => simp only [sesNames]; exact List.mem_append_left _ hn
    have hrest : ∀ n ∈ sesNames ops, n ∈ ns := by
      intro n hn
      apply hns
      cases op <;> simp only [sesNames]
      · exact List.mem_append_right _ hn
      · exact List.mem_cons_of_mem _ hn
      · exact List.mem_append_right _ hn
    have hsub : ∀ n ∈ ns, IndexSpread (fun k => (C.vrfProve vk k).1) (n :: ns) := by
      intro n hn a ha b hb e
      refine spread a ?_ b ?_ e
      · rcases List.mem_cons.mp ha with h | h; exact h ▸ hn; exact h
      · rcases List.mem_cons.mp hb with h | h; exact h ▸ hn; exact h
    have hown' : ∀ n ∈ ownNames ops, C.vrfUsable n = true := by
      intro n hn
      apply hown
      cases op <;> simp only [ownNames]
      · exact hn
      · exact List.mem_cons_of_mem _ hn
      · exact List.mem_cons_of_mem _ hn
    have i1 := ses_dir_step i op.dirOp hnames inj spread (by omega) d1 r h1
    cases op with
    | dir op =>
      obtain ⟨cc', hcc⟩ := ih d1 _ _ cc _ i1 hrest hown' hk (by rw [hil]; omega) d' log' h2
      refine ⟨cc', ?_⟩
      simp only [runTalk, talks]
      rw [show d.step C op = some (d1, r) from h1]
      exact hcc
    | lookup n key =>
      have hn : n ∈ ns := hns n (by simp [sesNames])
      obtain ⟨resp, g1, g2⟩ := keyLookup_spec i.dir ⟨n⟩ (spread_inj (hsub n hn))
      have g2 : Answers C sk vk n d.latestSTR resp (A.lookupAnswer n) := by
        rcases g2 with ⟨_, x, _⟩ | x
        · exact absurd (hsub n hn) x
        · exact x
      have hd1 : d1 = d := by
        simp only [SesOp.dirOp, Directory.step, g1, Option.map_some, Option.some.injEq, Prod.mk.injEq] at h1
        exact h1.1.symm
      subst hd1
      have hiss : SesOp.dirOp (.lookup n key) = .keyLookup ⟨n⟩ := rfl
      rw [hiss] at h2
      simp only [DirOp.issued, List.append_nil] at h2
      have hlag : answered (A.lookupAnswer n) = true → lag ≤ 1 := by
        intro ha; simp only [KeepsUp, if_pos ha] at hk; exact hk.1
      obtain ⟨c1, k1, k2⟩ := ses_client i i.dir rfl i.pol (fun _ _ h => h) KeyLookupType n (hown n (List.mem_cons_self ..)) key (A.lookupAnswer n) resp g2 hlag
        (lookup_shape A i.dir.disj n)
      have hk' : KeepsUp (if answered (A.lookupAnswer n) then 0 else lag) A ops := by
        simp only [KeepsUp] at hk
        split at hk
        · next e => rw [if_pos e]; exact hk.2
        · next e => rw [if_neg e]; exact hk
      obtain ⟨cc', hcc⟩ := ih d1 log A c1 _ k2 hrest hown' hk' (by omega) d' log' h2
      refine ⟨cc', ?_⟩
      simp only [runTalk, talks, g1, Option.bind_some, k1, hcc, Option.map_some, answers_code g2]
    | register rnd n k =>
      have hn : n ∈ ns := hns n (by simp [sesNames, SesOp.dirOp, regNames])
      obtain ⟨d2, resp, g1, _, _, g2⟩ := register_spec i.dir rnd ⟨n, k⟩ hn inj
      have g2 : Answers C sk vk n d.latestSTR resp (A.registerAnswer rnd n k) := by
        rcases g2 with ⟨_, x⟩ | x
        · exact absurd spread x
        · exact x
      have hd1 : d1 = d2 := by
        simp only [SesOp.dirOp, Directory.step, g1, Option.map_some, Option.some.injEq, Prod.mk.injEq] at h1
        exact h1.1.symm
      subst hd1
      have hiss : SesOp.dirOp (.register rnd n k) = .register rnd ⟨n, k⟩ := rfl
      rw [hiss] at h2 i1
      simp only [DirOp.issued, List.append_nil, reduceCtorEq, if_false] at h2 i1
      have hlat := (register_keeps g1).2.2
      have hlag : answered (A.registerAnswer rnd n k) = true → lag ≤ 1 := by
        intro ha; simp only [KeepsUp, if_pos ha] at hk; exact hk.1
      have hext : ∀ m v, A.merged m = some v → (A.step (.register rnd ⟨n, k⟩)).merged m = some v := by
        intro m v hm
        simp only [AbsDir.step]
        split
        · next hc =>
          simp only [AbsDir.merged, AbsDir.add]
          by_cases e : m = n
          · subst e; rw [hc.2.2.1] at hm; nomatch hm
          · simp only [if_neg e]; exact hm
        · exact hm
      obtain ⟨c1, k1, k2⟩ := ses_client i i1.dir hlat i1.pol hext RegistrationType n (hown n (List.mem_cons_self ..)) (some k) (A.registerAnswer rnd n k) resp g2 hlag
        (register_shape A i.dir.disj rnd n k)
      have hk' : KeepsUp (if answered (A.registerAnswer rnd n k) then 0 else lag) (A.step (.register rnd ⟨n, k⟩)) ops := by
        simp only [KeepsUp] at hk
        split at hk
        · next e => rw [if_pos e]; exact hk.2
        · next e => rw [if_neg e]; exact hk
      obtain ⟨cc', hcc⟩ := ih d1 log _ c1 _ k2 hrest hown' hk' (by omega) d' log' h2
      refine ⟨cc', ?_⟩
      simp only [runTalk, talks, g1, Option.bind_some, k1, hcc, Option.map_some, answers_code g2]


theorem runSession_talk (C : Crypto) : ∀ (ops : List SesOp) (d : Directory) (cc : Client),
    runSession C d cc ops = (runTalk C d cc ops).map fun z => (z.1, z.2.1, z.2.2.map Prod.fst)
  | [], _, _ => rfl
  | .dir op :: ops, d, cc => by
    simp only [runSession, runTalk]
    cases d.step C op with
    | none => rfl
    | some x => exact runSession_talk C ops x.1 cc
  | .lookup n key :: ops, d, cc => by
    simp only [runSession, runTalk]
    cases d.keyLookup C ⟨n⟩ with
    | none => rfl
    | some r =>
      simp only [Option.bind_some]
      cases cc.handleResponse C KeyLookupType r n key with
      | none => rfl
      | some y =>
        simp only [Option.bind_some, runSession_talk C ops d y.1]
        cases runTalk C d y.1 ops <;> rfl
  | .register rnd n k :: ops, d, cc => by
    simp only [runSession, runTalk]
    cases d.register C rnd ⟨n, k⟩ with
    | none => rfl
    | some x =>
      simp only [Option.bind_some]
      cases cc.handleResponse C RegistrationType x.2 n (some k) with
      | none => rfl
      | some y =>
        simp only [Option.bind_some, runSession_talk C ops x.1 y.1]
        cases runTalk C x.1 y.1 ops <;> rfl

/-! ### no key is ever pinned -/

theorem handle_bindings {C : Crypto} {cc cc' : Client} {ty : Int} {msg : Response} {n : Bytes} {key : Option Bytes} {e : Option ErrorCode}
    (h : cc.handleResponse C ty msg n key = some (cc', e)) (hb : ∀ m, (cc.bindings m).join = none) : ∀ m, (cc'.bindings m).join = none := by
  rcases handle_cases h with ⟨_, rfl⟩ | ⟨df, s, rest, _, _, _, _, _, ⟨_, rfl⟩ | ⟨_, _, cc2, hu, rfl⟩⟩
  · exact hb
  · exact hb
  · intro m
    show Option.join (if m = n then some msg.getKey else cc2.bindings m) = none
    split
    · rfl
    · rw [(updateTBs_only hu).2.1]; exact hb m

/-! ### the client's side of an exchange with an honest server, with texts -/

theorem malformed_text : ascii "Error: " ++ errorText ErrMalformedMessage = ascii "Error: [coniks] Malformed message" := by decide +kernel

theorem afterRegister_sendable {C : Crypto} {cc : Client} {r : Response} (h : Sendable RegistrationType r) (n k : Bytes) :
    cc.afterRegister C (.ok (clientRead (marshalResponse r))) n k =
      if (marshalResponse r).length ≤ 8192 then
        (cc.handleResponse C RegistrationType r n (some k)).map fun y => (y.1, registerText y.2 r.error none n k)
      else some (cc, ascii "Error: [coniks] Malformed message") := by
  unfold Client.afterRegister clientRead
  dsimp only
  split
  · rename_i hl
    rw [List.take_of_length_le hl]
    have := h.roundtrip
    cases hu : unmarshalResponse RegistrationType (marshalResponse r) with
    | none => rw [hu] at this; exact nomatch this
    | some w =>
      rw [hu] at this
      simp only [Option.map_some, Option.some.injEq] at this
      rw [Option.bind_some, this]
      rw [← this]; rfl
  · rename_i hl
    rw [unmarshal_bad _ _ (take_marshal r h.strs 8192 (by omega)), Option.bind_some, ← malformed_text]
    rfl

theorem afterLookup_sendable {C : Crypto} {cc : Client} {r : Response} (h : Sendable KeyLookupType r) (n : Bytes)
    (hb : (cc.bindings n).join = none) :
    cc.afterLookup C (.ok (clientRead (marshalResponse r))) n =
      if (marshalResponse r).length ≤ 8192 then
        (cc.handleResponse C KeyLookupType r n none).map fun y => (y.1, lookupText y.2 r.error none)
      else some (cc, ascii "Error: [coniks] Malformed message") := by
  unfold Client.afterLookup clientRead
  dsimp only
  rw [hb]
  split
  · rename_i hl
    rw [List.take_of_length_le hl]
    have := h.roundtrip
    cases hu : unmarshalResponse KeyLookupType (marshalResponse r) with
    | none => rw [hu] at this; exact nomatch this
    | some w =>
      rw [hu] at this
      simp only [Option.map_some, Option.some.injEq] at this
      rw [Option.bind_some, this]
      rw [← this]; rfl
  · rename_i hl
    rw [unmarshal_bad _ _ (take_marshal r h.strs 8192 (by omega)), Option.bind_some, ← malformed_text]
    rfl

theorem cliRegister_eq {C : Crypto} {N : Net} {conf : CliConf} {perms : Nat → Int → Bool} (hu : N.usable conf.reg = some true)
    (hp : perms (N.listener conf.reg) 0 = true) {rnd : Option Bytes} {d : Directory} (i : StdDir d) {cc : Client} {n k : Bytes} (hn : Utf8 n) :
    cc.cliRegister C N conf perms rnd d n k =
      if (createRegistrationMsg n (some k)).length ≤ 8192 then
        (d.register C rnd ⟨n, k⟩).bind fun x =>
          if (marshalResponse x.2).length ≤ 8192 then
            (cc.handleResponse C RegistrationType x.2 n (some k)).map fun y => (x.1, y.1, registerText y.2 x.2.error none n k)
          else some (x.1, cc, ascii "Error: [coniks] Malformed message")
      else some (d, cc, ascii "Error: [coniks] Malformed message") := by
  unfold Client.cliRegister
  rw [hu, Option.bind_some, if_pos rfl]
  split
  · rename_i hl
    rw [exchange_short C perms rnd d _ _ hl _ (request_registration n (some k)) hp, (clean_iff n).mpr hn, Option.getD_some, handle_reg]
    cases hr : d.register C rnd ⟨n, k⟩ with
    | none => rfl
    | some x =>
      obtain ⟨d', r⟩ := x
      simp only [Option.map_some, Option.bind_some]
      rw [afterRegister_sendable (register_sendable i hr)]
      split
      · rw [Option.map_map]; rfl
      · rfl
  · rename_i hl
    have hlt : 8192 < (createRegistrationMsg n (some k)).length := by omega
    have hc : unmarshalRequest goJson ((createRegistrationMsg n (some k)).take 8192) = none :=
      request_cut RegistrationType _ (encRegistration_ok n (some k)).1 8192 hlt
    rw [exchange_long C perms rnd d _ _ hlt hc, Option.bind_some]
    have hl : (marshalResponse (newErrorResponse ErrMalformedMessage)).length ≤ 8192 := by decide +kernel
    rw [afterRegister_sendable (sendable_error _ _ (Or.inl rfl)), if_pos hl, ← malformed_text]
    rfl

theorem cliLookup_eq {C : Crypto} {N : Net} {conf : CliConf} {perms : Nat → Int → Bool} (hu : N.usable conf.address = some true)
    (hp : perms (N.listener conf.address) 1 = true) {d : Directory} (i : StdDir d) {cc : Client} {n : Bytes} (hn : Utf8 n)
    (hb : (cc.bindings n).join = none) :
    cc.cliLookup C N conf perms d n =
      if (createKeyLookupMsg n).length ≤ 8192 then
        (d.keyLookup C ⟨n⟩).bind fun r =>
          if (marshalResponse r).length ≤ 8192 then
            (cc.handleResponse C KeyLookupType r n none).map fun y => (d, y.1, lookupText y.2 r.error none)
          else some (d, cc, ascii "Error: [coniks] Malformed message")
      else some (d, cc, ascii "Error: [coniks] Malformed message") := by
  unfold Client.cliLookup
  rw [hu, Option.bind_some, if_pos rfl]
  split
  · rename_i hl
    rw [exchange_short C perms none d _ _ hl _ (request_lookup n) hp, (clean_iff n).mpr hn, handle_lookup]
    cases hr : d.keyLookup C ⟨n⟩ with
    | none => rfl
    | some r =>
      simp only [Option.map_some, Option.bind_some]
      rw [afterLookup_sendable (lookup_sendable i hr) n hb]
      split
      · rw [Option.map_map]; rfl
      · rfl
  · rename_i hl
    have hlt : 8192 < (createKeyLookupMsg n).length := by omega
    have hc : unmarshalRequest goJson ((createKeyLookupMsg n).take 8192) = none :=
      request_cut KeyLookupType _ (encRegistration_ok n none).1 8192 hlt
    rw [exchange_long C perms none d _ _ hlt hc, Option.bind_some]
    have hl : (marshalResponse (newErrorResponse ErrMalformedMessage)).length ≤ 8192 := by decide +kernel
    rw [afterLookup_sendable (sendable_error _ _ (Or.inl rfl)) n hb, if_pos hl, ← malformed_text]
    rfl

/-! ### sessions -/

/-- what is printed, given the results of the calls -/
def render : Bool → List ReplEvent → List (Option ErrorCode × ErrorCode) → List (Bool × Bytes)
  | _, [], _ => []
  | ts, .dir _ :: evs, rs => render ts evs rs
  | ts, .line _ l :: evs, rs =>
    match command (fields l), rs with
    | .register n k, r :: rs => (ts, ascii "[+] " ++ registerText r.1 r.2 none n k) :: render ts evs rs
    | .lookup _, r :: rs => (ts, ascii "[+] " ++ lookupText r.1 r.2 none) :: render ts evs rs
    | .exit, _ => [(ts, ascii "[+] See ya.")]
    | c, rs => (localCommand ts (utf8 l) c).2.toList ++ render (localCommand ts (utf8 l) c).1 evs rs

theorem utf8_utf8 (s : List Char) : Utf8 (utf8 s) := ⟨s, rfl⟩

theorem command_register {args : List (List Char)} {n k : Bytes} (h : command args = .register n k) : Utf8 n ∧ Utf8 k := by
  unfold command at h
  split at h
  · exact nomatch h
  · repeat' split at h
    all_goals first
      | (cases h; done)
      | (cases h; exact ⟨utf8_utf8 _, utf8_utf8 _⟩)

theorem command_lookup {args : List (List Char)} {n : Bytes} (h : command args = .lookup n) : Utf8 n := by
  unfold command at h
  split at h
  · exact nomatch h
  · repeat' split at h
    all_goals first
      | (cases h; done)
      | (cases h; exact utf8_utf8 _)

theorem repl_talk {C : Crypto} {N : Net} {conf : CliConf} {perms : Nat → Int → Bool} (hur : N.usable conf.reg = some true)
    (hu : N.usable conf.address = some true) (h0 : perms (N.listener conf.reg) 0 = true) (h1 : perms (N.listener conf.address) 1 = true) :
    ∀ (evs : List ReplEvent) (d : Directory) (cc : Client) (ts : Bool), StdDir d → (∀ m, (cc.bindings m).join = none) →
    AllFit C d (sesOps evs) = true →
    repl C N conf perms d cc ts evs = (runTalk C d cc (sesOps evs)).map fun z => (z.1, z.2.1, render ts evs z.2.2)
  | [], _, _, _, _, _, _ => rfl
  | .dir op :: evs, d, cc, ts, i, hb, hf => by
    simp only [sesOps, AllFit, SesOp.dirOp, Bool.and_eq_true] at hf
    simp only [repl, sesOps, runTalk, render]
    cases hs : d.step C op with
    | none => rfl
    | some x =>
      obtain ⟨d', r⟩ := x
      rw [hs] at hf
      simp only [Bool.and_eq_true] at hf
      exact repl_talk hur hu h0 h1 evs d' cc ts (step_std i hs) hb hf.2.2
  | .line rnd l :: evs, d, cc, ts, i, hb, hf => by
    have other : ∀ c : Command, command (fields l) = c → (∀ n k, c ≠ .register n k) → (∀ n, c ≠ .lookup n) → c ≠ .exit →
        repl C N conf perms d cc ts (.line rnd l :: evs) = (runTalk C d cc (sesOps (.line rnd l :: evs))).map fun z =>
          (z.1, z.2.1, render ts (.line rnd l :: evs) z.2.2) := by
      intro c hc n1 n2 n3
      have e : sesOps (.line rnd l :: evs) = sesOps evs := by
        simp only [sesOps, hc]
      rw [e] at hf ⊢
      simp only [repl, render, hc]
      rw [repl_talk hur hu h0 h1 evs d cc _ i hb hf]
      cases runTalk C d cc (sesOps evs) with
      | none => rfl
      | some z =>
        cases c with
        | register n k => exact absurd rfl (n1 n k)
        | lookup n => exact absurd rfl (n2 n)
        | exit => exact absurd rfl n3
        | _ => rfl
    cases hc : command (fields l) with
    | register n k =>
      simp only [sesOps, hc, AllFit, SesOp.dirOp, Bool.and_eq_true, requestFits, decide_eq_true_eq] at hf
      simp only [repl, sesOps, runTalk, render, hc]
      rw [cliRegister_eq hur h0 i (command_register hc).1, if_pos hf.1]
      cases hs : d.register C rnd ⟨n, k⟩ with
      | none => rfl
      | some x =>
        obtain ⟨d', r⟩ := x
        have hstep : d.step C (.register rnd ⟨n, k⟩) = some (d', some r) := by simp [Directory.step, hs]
        rw [hstep] at hf
        simp only [Bool.and_eq_true, answerFits, decide_eq_true_eq] at hf
        simp only [Option.bind_some, if_pos hf.2.1]
        cases hh : cc.handleResponse C RegistrationType r n (some k) with
        | none => rfl
        | some y =>
          obtain ⟨c', e⟩ := y
          simp only [Option.map_some, Option.bind_some]
          rw [repl_talk hur hu h0 h1 evs d' c' ts (step_std i hstep) (handle_bindings hh hb) hf.2.2]
          cases runTalk C d' c' (sesOps evs) <;> rfl
    | lookup n =>
      simp only [sesOps, hc, AllFit, SesOp.dirOp, Bool.and_eq_true, requestFits, decide_eq_true_eq] at hf
      simp only [repl, sesOps, runTalk, render, hc]
      rw [cliLookup_eq hu h1 i (command_lookup hc) (hb n), if_pos hf.1]
      cases hs : d.keyLookup C ⟨n⟩ with
      | none => rfl
      | some r =>
        have hstep : d.step C (.keyLookup ⟨n⟩) = some (d, some r) := by simp [Directory.step, hs]
        rw [hstep] at hf
        simp only [Bool.and_eq_true, answerFits, decide_eq_true_eq] at hf
        simp only [Option.bind_some, if_pos hf.2.1]
        cases hh : cc.handleResponse C KeyLookupType r n none with
        | none => rfl
        | some y =>
          obtain ⟨c', e⟩ := y
          simp only [Option.map_some, Option.bind_some]
          rw [repl_talk hur hu h0 h1 evs d c' ts i (handle_bindings hh hb) hf.2.2]
          cases runTalk C d c' (sesOps evs) <;> rfl
    | exit => simp only [repl, sesOps, runTalk, render, hc, Option.map_some]
    | _ => exact other _ hc (by simp) (by simp) (by simp)

/-- pending names are not committed -/
def Disj (A : AbsDir) : Prop := ∀ n v, A.pending n = some v → A.committed n = none

theorem disj_step {A : AbsDir} (h : Disj A) (op : DirOp) : Disj (A.step op) := by
  intro n v hp
  cases op with
  | register rnd req =>
    simp only [AbsDir.step] at hp ⊢
    split at hp
    · rename_i hc
      rw [if_pos hc]
      simp only [AbsDir.add] at hp ⊢
      split at hp
      · rename_i e
        have := hc.2.2.1
        rw [← e, AbsDir.merged] at this
        split at this
        · exact nomatch this
        · exact this
      · exact h n v hp
    · rename_i hc
      rw [if_neg hc]; exact h n v hp
  | update => exact nomatch hp
  | _ => exact h n v hp

theorem disj_after : ∀ (ops : List DirOp) (A : AbsDir), Disj A → Disj (ops.foldl AbsDir.step A)
  | [], _, h => h
  | op :: ops, _, h => disj_after ops _ (disj_step h op)

theorem disj_init : Disj AbsDir.init := fun _ _ h => nomatch h

theorem register_text {A : AbsDir} (h : Disj A) (rnd : Option Bytes) (n k : Bytes) :
    registerText (verdict (some k) (A.registerAnswer rnd n k)) (A.registerAnswer rnd n k).1 none n k = registerLine A rnd n k := by
  unfold registerLine AbsDir.registerAnswer
  split
  · rw [← malformed_text]; rfl
  · cases hp : A.pending n with
    | some w =>
      rw [h n w hp]
      simp only [AbsDir.merged, hp]
      by_cases e : w = k
      · subst e
        simp [verdict, registerText, ReqNameExisted, ReqSuccess, ErrMalformedMessage, ErrDirectory]
      · simp [verdict, registerText, ReqNameExisted, ReqSuccess, ErrMalformedMessage, ErrDirectory, e, CheckBindingsDiffer, CheckBadSTR]
    | none =>
      simp only [AbsDir.merged, hp]
      cases A.committed n with
      | some w =>
        dsimp only
        by_cases e : w = k
        · subst e
          simp [verdict, registerText, ReqNameExisted, ReqSuccess, ErrMalformedMessage, ErrDirectory]
        · simp [verdict, registerText, ReqNameExisted, ReqSuccess, ErrMalformedMessage, ErrDirectory, e, CheckBindingsDiffer, CheckBadSTR]
      | none =>
        dsimp only
        split
        · simp [verdict, registerText, ReqSuccess, ErrMalformedMessage, ErrDirectory]
        · rw [show ascii "Error: [coniks] Directory error" = ascii "Error: " ++ errorText ErrDirectory by decide +kernel]
          rfl

theorem lookup_text {A : AbsDir} (h : Disj A) (n : Bytes) :
    lookupText (verdict none (A.lookupAnswer n)) (A.lookupAnswer n).1 none = lookupLine A n := by
  have hk : ascii "Found! Key bound to name is: [" ++ (none : Option Bytes).getD [] ++ ascii "]" = ascii "Found! Key bound to name is: []" := by
    decide +kernel
  unfold lookupLine AbsDir.lookupAnswer
  split
  · rw [← malformed_text]; rfl
  · cases hp : A.pending n with
    | some w =>
      rw [h n w hp]
      simp only [AbsDir.merged, hp]
      rw [← hk]; rfl
    | none =>
      simp only [AbsDir.merged, hp]
      cases A.committed n with
      | some w => rw [← hk]; rfl
      | none => rfl

theorem render_talks : ∀ (evs : List ReplEvent) (A : AbsDir) (ts : Bool), Disj A → render ts evs (talks A (sesOps evs)) = lines A ts evs
  | [], _, _, _ => rfl
  | .dir op :: evs, A, ts, h => by
    simp only [render, sesOps, talks, lines]
    exact render_talks evs _ ts (disj_step h op)
  | .line rnd l :: evs, A, ts, h => by
    cases hc : command (fields l) with
    | register n k =>
      simp only [render, sesOps, hc, talks, lines]
      rw [register_text h, render_talks evs _ ts (disj_step h _)]
    | lookup n =>
      simp only [render, sesOps, hc, talks, lines]
      rw [lookup_text h, render_talks evs _ ts h]
    | exit => simp only [render, lines, hc]
    | _ => simp only [render, sesOps, hc, lines]; rw [render_talks evs _ _ h]

/-- a client that is too far behind -/
theorem render_lost : ∀ (evs : List ReplEvent) (A : AbsDir) (ts : Bool) (rs : List (Option ErrorCode × ErrorCode)), Disj A →
    rs.map Prod.fst = refusals A (sesOps evs) → render ts evs rs = lostLines A ts evs
  | [], _, _, _, _, _ => rfl
  | .dir op :: evs, A, ts, rs, h, hr => by
    simp only [render, lostLines]
    exact render_lost evs _ ts rs (disj_step h op) hr
  | .line rnd l :: evs, A, ts, rs, h, hr => by
    cases hc : command (fields l) with
    | register n k =>
      simp only [sesOps, hc, refusals] at hr
      cases rs with
      | nil => exact nomatch hr
      | cons r rs =>
        simp only [List.map_cons, List.cons.injEq] at hr
        simp only [render, hc, lostLines]
        rw [render_lost evs _ ts rs (disj_step h _) hr.2, hr.1]
        congr 3
        split
        · rfl
        · rename_i ha
          have ht := register_text h rnd n k
          rw [← ht]
          have he : (A.registerAnswer rnd n k).1 = ErrMalformedMessage ∨ (A.registerAnswer rnd n k).1 = ErrDirectory := by
            refine Decidable.or_iff_not_imp_left.mpr ?_
            simpa [answered] using ha
          rcases he with he | he <;>
            simp [he, verdict, registerText, ErrMalformedMessage, ErrDirectory, CheckBindingsDiffer, CheckBadSTR]
    | lookup n =>
      simp only [sesOps, hc, refusals] at hr
      cases rs with
      | nil => exact nomatch hr
      | cons r rs =>
        simp only [List.map_cons, List.cons.injEq] at hr
        simp only [render, hc, lostLines]
        rw [render_lost evs _ ts rs h hr.2, hr.1]
        congr 3
        split
        · rfl
        · rename_i ha
          have ht := lookup_text h n
          rw [← ht]
          have he : (A.lookupAnswer n).1 = ErrMalformedMessage ∨ (A.lookupAnswer n).1 = ErrDirectory := by
            refine Decidable.or_iff_not_imp_left.mpr ?_
            simpa [answered] using ha
          rcases he with he | he <;>
            simp [he, verdict, lookupText, ErrMalformedMessage, ErrDirectory, CheckBadSTR]
    | exit => simp only [render, lostLines, hc]
    | _ =>
      simp only [sesOps, hc] at hr
      simp only [render, hc, lostLines]; rw [render_lost evs _ _ rs h hr]

/-! ### words of a line -/

theorem isSpace_blank (c : Char) : isSpace c = blank c := by
  have h : ∀ n : Nat, ((n = 0x09 ∨ n = 0x0A ∨ n = 0x0b ∨ n = 0x0c ∨ n = 0x0D ∨ n = 0x20 ∨ n = 0x85 ∨ n = 0xa0 ∨ n = 0x1680 ∨
      (0x2000 ≤ n ∧ n ≤ 0x200a) ∨ n = 0x2028 ∨ n = 0x2029 ∨ n = 0x202f ∨ n = 0x205f ∨ n = 0x3000) ↔ n ∈ blanks) := by
    intro n
    simp only [blanks, List.mem_cons, List.not_mem_nil, or_false]
    omega
  have e : ∀ d : Char, (c = d ↔ c.toNat = d.toNat) := fun d => ⟨fun h => by rw [h], fun h => Char.toNat_inj.mp h⟩
  rw [Bool.eq_iff_iff]
  unfold blank
  rw [List.contains_iff_mem, ← h]
  unfold isSpace
  simp only [Bool.or_eq_true, Bool.and_eq_true, decide_eq_true_eq, or_assoc]
  rw [e '\t', e '\n', e '\r', e ' ']
  exact Iff.rfl

theorem fieldsAux_words : ∀ (l w : List Char), (∀ c ∈ w, blank c = false) →
    (w = [] → Words l (fieldsAux [] l)) ∧ (w ≠ [] → Words (w.reverse ++ l) (fieldsAux w l))
  | [], w, hw => by
    refine ⟨fun _ => .nil (by simp), fun hne => ?_⟩
    have := Words.cons (s := []) (w := w.reverse) (rest := []) (ws := []) (by simp) (by simpa using hne)
      (fun c hc => hw c (List.mem_reverse.mp hc)) (by simp) (.nil (by simp))
    simpa [fieldsAux, hne] using this
  | c :: cs, w, hw => by
    constructor
    · rintro rfl
      simp only [fieldsAux, isSpace_blank, if_true]
      split
      · rename_i hc
        have ih := (fieldsAux_words cs [] (by simp)).1 rfl
        generalize fieldsAux [] cs = ws at ih
        cases ih with
        | nil h => exact .nil (by intro x hx; rcases List.mem_cons.mp hx with rfl | hx; exact hc; exact h x hx)
        | @cons s w rest ws h1 h2 h3 h4 h5 =>
          exact Words.cons (s := c :: s) (by intro x hx; rcases List.mem_cons.mp hx with rfl | hx; exact hc; exact h1 x hx) h2 h3 h4 h5
      · rename_i hc
        exact (fieldsAux_words cs [c] (by simpa using hc)).2 (by simp)
    · intro hne
      simp only [fieldsAux, isSpace_blank, if_neg hne]
      split
      · rename_i hc
        have ih := (fieldsAux_words cs [] (by simp)).1 rfl
        have hx : Words (c :: cs) (fieldsAux [] cs) := by
          generalize fieldsAux [] cs = ws at ih
          cases ih with
          | nil h => exact .nil (by intro x hx; rcases List.mem_cons.mp hx with rfl | hx; exact hc; exact h x hx)
          | @cons s w rest ws h1 h2 h3 h4 h5 =>
            exact Words.cons (s := c :: s) (by intro x hx; rcases List.mem_cons.mp hx with rfl | hx; exact hc; exact h1 x hx) h2 h3 h4 h5
        have := Words.cons (s := []) (w := w.reverse) (rest := c :: cs) (by simp) (by simpa using hne)
          (fun c hc => hw c (List.mem_reverse.mp hc)) (by simpa using hc) hx
        simpa using this
      · rename_i hc
        have := (fieldsAux_words cs (c :: w) (by
          intro x hx; rcases List.mem_cons.mp hx with rfl | hx; simpa using hc; exact hw x hx)).2 (by simp)
        simpa using this

theorem fields_words (l : List Char) : Words l (fields l) := (fieldsAux_words l [] (by simp)).1 rfl

theorem takeWhile_run {w rest : List Char} (h3 : ∀ c ∈ w, blank c = false) (h4 : ∀ c ∈ rest.head?, blank c = true) :
    (w ++ rest).takeWhile (fun c => !blank c) = w := by
  induction w with
  | nil =>
    cases rest with
    | nil => rfl
    | cons c cs => simp [h4 c (by simp)]
  | cons a w ih =>
    simp only [List.cons_append, List.takeWhile_cons, h3 a (by simp)]
    simp [ih fun c hc => h3 c (List.mem_cons_of_mem _ hc)]

theorem dropWhile_run {s w : List Char} (h1 : ∀ c ∈ s, blank c = true) (h2 : ∀ c ∈ w.head?, blank c = false) :
    (s ++ w).dropWhile blank = w := by
  induction s with
  | nil =>
    cases w with
    | nil => rfl
    | cons c cs => simp [h2 c (by simp)]
  | cons a s ih =>
    simp only [List.cons_append, List.dropWhile_cons, h1 a (by simp)]
    simp [ih fun c hc => h1 c (List.mem_cons_of_mem _ hc)]

theorem words_unique {l : List Char} {ws vs : List (List Char)} (h : Words l ws) (g : Words l vs) : ws = vs := by
  induction h generalizing vs with
  | nil h =>
    cases g with
    | nil _ => rfl
    | @cons s w rest vs h1 h2 h3 h4 h5 =>
      exfalso
      cases w with
      | nil => exact h2 rfl
      | cons c w =>
        have := h c (by simp)
        rw [h3 c (by simp)] at this
        exact nomatch this
  | @cons s w rest ws h1 h2 h3 h4 h5 ih =>
    generalize hl : s ++ w ++ rest = l at g
    cases g with
    | nil g =>
      exfalso
      cases w with
      | nil => exact h2 rfl
      | cons c w =>
        have := g c (by rw [← hl]; simp)
        rw [h3 c (by simp)] at this
        exact nomatch this
    | @cons s' w' rest' vs g1 g2 g3 g4 g5 =>
      have d1 : (s ++ w ++ rest).dropWhile blank = w ++ rest := by
        rw [List.append_assoc]
        refine dropWhile_run h1 ?_
        cases w with
        | nil => exact absurd rfl h2
        | cons c w => intro x hx; simp at hx; subst hx; exact h3 _ (by simp)
      have d2 : (s' ++ w' ++ rest').dropWhile blank = w' ++ rest' := by
        rw [List.append_assoc]
        refine dropWhile_run g1 ?_
        cases w' with
        | nil => exact absurd rfl g2
        | cons c w => intro x hx; simp at hx; subst hx; exact g3 _ (by simp)
      have e : w ++ rest = w' ++ rest' := by rw [← d1, ← d2, hl]
      have ew : w = w' := by rw [← takeWhile_run h3 h4, ← takeWhile_run g3 g4, e]
      subst ew
      have er := List.append_cancel_left e
      subst er
      rw [ih g5]

end Coniks
