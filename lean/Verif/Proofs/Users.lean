import Verif.Spec.Users
import Verif.Proofs.Session
import Verif.Proofs.DirShown
/-
Several users of one directory.
-/
namespace Coniks
open Spec

/-! ### the keys a registration shows -/

theorem register_none {C sk vk ns d log A} (inv : DirInv C sk vk ns d log A) (rnd : Option Bytes) (req : RegistrationRequest)
    (inj : IndexInj (fun k => (C.vrfProve vk k).1) (req.username :: ns)) (hv : A.merged req.username = none)
    (d' : Directory) (resp : Response) (h : d.register C rnd req = some (d', resp)) :
    ∀ k ∈ keysShown resp, k = req.key ∧ resp.error = ReqSuccess := by
  have hp : A.pending req.username = none ∧ A.committed req.username = none := by
    unfold AbsDir.merged at hv
    cases hp : A.pending req.username with
    | some w => rw [hp] at hv; cases hv
    | none => rw [hp] at hv; exact ⟨rfl, hv⟩
  by_cases hmal : req.username.length = 0 ∨ req.key.length = 0
  · simp only [Directory.register, if_pos hmal, Option.some.injEq, Prod.mk.injEq] at h
    obtain ⟨rfl, rfl⟩ := h
    simp [keysShown, newErrorResponse]
  · obtain ⟨ap, hl, hcases⟩ := lookup_cases inv req.username inj
    have htb := inv.tbs req.username
    rw [hp.1, Option.map_none] at htb
    have hleaf : ∃ l, ap.leaf = some l ∧ l.value = none := by
      rcases hcases with ⟨w, hc, _⟩ | ⟨_, _, hs⟩ | ⟨_, hx, _⟩
      · rw [hp.2] at hc; nomatch hc
      · exact hs.value
      · exact hx
    obtain ⟨l, hl1, hl2⟩ := hleaf
    simp only [Directory.register, if_neg hmal, hl] at h
    split at h
    · nomatch h
    · cases h; simp [keysShown, newSingleProof, hl1, hl2]
    · simp only [inv.tbsOn, if_true, htb] at h
      split at h
      · nomatch h
      · cases h; simp [keysShown, newErrorResponse]
      · cases h
        simp [keysShown, newSingleProof, hl1, hl2, Directory.newTB]

theorem inj_cons {idx : Bytes → Bytes} {ns : List Bytes} {n : Bytes} (hn : n ∈ ns) (inj : IndexInj idx ns) : IndexInj idx (n :: ns) := by
  intro a ha b hb e
  refine inj a ?_ b ?_ e
  · rcases List.mem_cons.mp ha with rfl | ha; exact hn; exact ha
  · rcases List.mem_cons.mp hb with rfl | hb; exact hn; exact hb

theorem register_shows {C sk vk ns d log A} (inv : DirInv C sk vk ns d log A) (rnd : Option Bytes) (req : RegistrationRequest)
    (hn : req.username ∈ ns) (inj : IndexInj (fun k => (C.vrfProve vk k).1) ns) (d' : Directory) (resp : Response)
    (h : d.register C rnd req = some (d', resp)) :
    ∃ A', DirInv C sk vk ns d' log A' ∧ Extends A A' ∧ ∀ k ∈ keysShown resp, A'.merged req.username = some k := by
  obtain ⟨d2, r2, g, hc, _⟩ := register_spec inv rnd req hn inj
  rw [h, Option.some.injEq, Prod.mk.injEq] at g
  obtain ⟨rfl, rfl⟩ := g
  have inj' := inj_cons hn inj
  rcases hc with ⟨rfl, _, hne⟩ | ⟨inv', _, hm, _⟩
  · refine ⟨A, inv, Extends.refl A, fun k hk => ?_⟩
    cases hm : A.merged req.username with
    | none => exact absurd (register_none inv rnd req inj' hm _ _ h k hk).2 hne
    | some v => rw [(register_keys inv rnd req inj' v hm _ _ h).2.1 k hk]
  · refine ⟨_, inv', Extends.add hm, fun k hk => ?_⟩
    rw [(register_none inv rnd req inj' hm _ _ h k hk).1]
    simp [AbsDir.merged, AbsDir.add]

/-! ### the calls at the directory -/

def opsOf (ops : List UserOp) : List DirOp := ops.flatMap UserOp.dirOps

theorem opsOf_cons (op : UserOp) (ops : List UserOp) : opsOf (op :: ops) = op.dirOps ++ opsOf ops := by
  simp [opsOf]

/-- the directory sees just the calls -/
theorem runUsers_dir (C : Crypto) (pk : Bytes) (ops : List UserOp) : ∀ d us d' us' heard log,
    runUsers C pk d us ops = some (d', us', heard) → ∃ log', d.runLog C log (opsOf ops) = some (d', log') := by
  induction ops with
  | nil =>
    intro d us d' us' heard log h
    simp only [runUsers, Option.some.injEq, Prod.mk.injEq] at h
    exact ⟨log, by simp [opsOf, Directory.runLog, h.1]⟩
  | cons op ops ih =>
    intro d us d' us' heard log h
    rw [opsOf_cons]
    cases op with
    | dir op =>
      obtain ⟨⟨d1, r⟩, h1, h2⟩ := Option.bind_eq_some_iff.mp h
      obtain ⟨log', h3⟩ := ih _ _ _ _ _ (log ++ op.issued d1) h2
      exact ⟨log', by simp only [UserOp.dirOps, List.singleton_append, Directory.runLog, h1, Option.bind_some]; exact h3⟩
    | join i =>
      obtain ⟨c, h1, h2⟩ := Option.bind_eq_some_iff.mp h
      exact ih _ _ _ _ _ log h2
    | lookup i n key =>
      obtain ⟨resp, h1, h⟩ := Option.bind_eq_some_iff.mp h
      obtain ⟨y, _, h⟩ := Option.bind_eq_some_iff.mp h
      obtain ⟨⟨z1, z2, z3⟩, h2, hz⟩ := Option.map_eq_some_iff.mp h
      simp only [Prod.mk.injEq] at hz
      obtain ⟨rfl, _, _⟩ := hz
      obtain ⟨log', h3⟩ := ih _ _ _ _ _ log h2
      refine ⟨log', ?_⟩
      simp only [UserOp.dirOps, List.singleton_append, Directory.runLog, Directory.step, h1, Option.map_some, Option.bind_some, DirOp.issued,
        List.append_nil]
      exact h3
    | register i rnd n k =>
      obtain ⟨⟨d1, resp⟩, h1, h⟩ := Option.bind_eq_some_iff.mp h
      obtain ⟨y, _, h⟩ := Option.bind_eq_some_iff.mp h
      obtain ⟨⟨z1, z2, z3⟩, h2, hz⟩ := Option.map_eq_some_iff.mp h
      simp only [Prod.mk.injEq] at hz
      obtain ⟨rfl, _, _⟩ := hz
      obtain ⟨log', h3⟩ := ih _ _ _ _ _ log h2
      refine ⟨log', ?_⟩
      simp only [UserOp.dirOps, List.singleton_append, Directory.runLog, Directory.step, h1, Option.map_some, Option.bind_some, DirOp.issued,
        List.append_nil]
      exact h3

/-! ### users do not disturb each other -/

theorem setUser_same (us : Nat → Client) (i : Nat) (c : Client) : setUser us i c i = c := by simp [setUser]
theorem setUser_other (us : Nat → Client) {i j : Nat} (c : Client) (h : j ≠ i) : setUser us i c j = us j := by simp [setUser, h]

theorem users_isolated (C : Crypto) (pk : Bytes) (i : Nat) (ops : List UserOp) : ∀ d us d' us' heard,
    (∀ j, UserOp.join j ∈ ops → j ≠ i) → runUsers C pk d us ops = some (d', us', heard) →
    runSession C d (us i) (ops.flatMap (UserOp.seenBy i)) = some (d', us' i, (heard.filter (·.user = i)).map Heard.verdict) := by
  induction ops with
  | nil =>
    intro d us d' us' heard _ h
    simp only [runUsers, Option.some.injEq, Prod.mk.injEq] at h
    obtain ⟨rfl, rfl, rfl⟩ := h
    rfl
  | cons op ops ih =>
    intro d us d' us' heard hj h
    have hj' : ∀ j, UserOp.join j ∈ ops → j ≠ i := fun j hm => hj j (List.mem_cons_of_mem _ hm)
    rw [List.flatMap_cons]
    cases op with
    | dir op =>
      obtain ⟨⟨d1, r⟩, h1, h2⟩ := Option.bind_eq_some_iff.mp h
      have := ih _ _ _ _ _ hj' h2
      simp only [UserOp.seenBy, List.singleton_append, runSession, h1, Option.bind_some]
      exact this
    | join j =>
      obtain ⟨c, h1, h2⟩ := Option.bind_eq_some_iff.mp h
      have := ih _ _ _ _ _ hj' h2
      rw [setUser_other _ _ (fun e => hj j (List.mem_cons_self ..) e.symm)] at this
      exact this
    | lookup j n key =>
      obtain ⟨resp, h1, h⟩ := Option.bind_eq_some_iff.mp h
      obtain ⟨y, hy, h⟩ := Option.bind_eq_some_iff.mp h
      obtain ⟨⟨z1, z2, z3⟩, h2, hz⟩ := Option.map_eq_some_iff.mp h
      simp only [Prod.mk.injEq] at hz
      obtain ⟨rfl, rfl, rfl⟩ := hz
      have := ih _ _ _ _ _ hj' h2
      by_cases e : j = i
      · subst e
        rw [setUser_same] at this
        simp only [UserOp.seenBy, if_true, List.singleton_append, runSession, h1, Option.bind_some, hy, this, Option.map_some,
          List.filter_cons, decide_true, List.map_cons]
      · rw [setUser_other _ _ (fun x => e x.symm)] at this
        simp only [UserOp.seenBy, if_neg e, List.singleton_append, runSession, Directory.step, h1, Option.map_some, Option.bind_some, this,
          List.filter_cons, decide_eq_true_eq]
    | register j rnd n k =>
      obtain ⟨⟨d1, resp⟩, h1, h⟩ := Option.bind_eq_some_iff.mp h
      obtain ⟨y, hy, h⟩ := Option.bind_eq_some_iff.mp h
      obtain ⟨⟨z1, z2, z3⟩, h2, hz⟩ := Option.map_eq_some_iff.mp h
      simp only [Prod.mk.injEq] at hz
      obtain ⟨rfl, rfl, rfl⟩ := hz
      have := ih _ _ _ _ _ hj' h2
      by_cases e : j = i
      · subst e
        rw [setUser_same] at this
        simp only [UserOp.seenBy, if_true, List.singleton_append, runSession, h1, Option.bind_some, hy, this, Option.map_some,
          List.filter_cons, decide_true, List.map_cons]
      · rw [setUser_other _ _ (fun x => e x.symm)] at this
        simp only [UserOp.seenBy, if_neg e, List.singleton_append, runSession, Directory.step, h1, Option.map_some, Option.bind_some, this,
          List.filter_cons, decide_eq_true_eq]

/-! ### what users hear is the directory's map -/

theorem users_agree (C : Crypto) (pk : Bytes) (sk vk : Bytes) (ns : List Bytes) (inj : IndexInj (fun k => (C.vrfProve vk k).1) ns)
    (ops : List UserOp) : ∀ d us log A, DirInv C sk vk ns d log A → (∀ n ∈ regNames (opsOf ops), n ∈ ns) → (∀ n ∈ userNames ops, n ∈ ns) →
    log.length + dirUpdates (opsOf ops) ≤ 2 ^ 64 → ∀ d' us' heard, runUsers C pk d us ops = some (d', us', heard) →
    ∃ log' A', DirInv C sk vk ns d' log' A' ∧ Extends A A' ∧ ∀ x ∈ heard, ∀ k ∈ keysShown x.resp, A'.merged x.name = some k := by
  induction ops with
  | nil =>
    intro d us log A inv _ _ _ d' us' heard h
    simp only [runUsers, Option.some.injEq, Prod.mk.injEq] at h
    obtain ⟨rfl, rfl, rfl⟩ := h
    exact ⟨log, A, inv, Extends.refl A, fun x hx => nomatch hx⟩
  | cons op ops ih =>
    intro d us log A inv hr hn hlen d' us' heard h
    rw [opsOf_cons, regNames_append] at hr
    rw [opsOf_cons, dirUpdates_append] at hlen
    have hr' : ∀ n ∈ regNames (opsOf ops), n ∈ ns := fun n hm => hr n (List.mem_append_right _ hm)
    cases op with
    | dir op =>
      obtain ⟨⟨d1, r⟩, h1, h2⟩ := Option.bind_eq_some_iff.mp h
      simp only [UserOp.dirOps] at hlen
      obtain ⟨A1, inv1, ext1, _⟩ := dir_step_inv inv op (fun n hm => hr n (List.mem_append_left _ hm)) inj (by omega) d1 r h1
      obtain ⟨log', A', q1, q2, q3⟩ := ih d1 us _ A1 inv1 hr' hn (by rw [List.length_append, issued_length]; omega) d' us' heard h2
      exact ⟨log', A', q1, ext1.trans q2, q3⟩
    | join i =>
      obtain ⟨c, h1, h2⟩ := Option.bind_eq_some_iff.mp h
      exact ih _ _ log A inv hr' hn (by omega) d' us' heard h2
    | lookup i n key =>
      obtain ⟨resp, h1, h⟩ := Option.bind_eq_some_iff.mp h
      obtain ⟨y, _, h⟩ := Option.bind_eq_some_iff.mp h
      obtain ⟨⟨z1, z2, z3⟩, h2, hz⟩ := Option.map_eq_some_iff.mp h
      simp only [Prod.mk.injEq] at hz
      obtain ⟨rfl, rfl, rfl⟩ := hz
      obtain ⟨log', A', q1, q2, q3⟩ := ih _ _ log A inv hr' (fun m hm => hn m (List.mem_cons_of_mem _ hm)) (by omega) _ _ _ h2
      refine ⟨log', A', q1, q2, fun x hx k hk => ?_⟩
      rcases List.mem_cons.mp hx with rfl | hx
      · exact q2.merged _ _ (read_shows inv (.keyLookup ⟨n⟩) n rfl (fun _ _ e => nomatch e) (inj_cons (hn n (List.mem_cons_self ..)) inj) d resp
          (by simp [Directory.step, h1]) k hk)
      · exact q3 x hx k hk
    | register i rnd n k =>
      obtain ⟨⟨d1, resp⟩, h1, h⟩ := Option.bind_eq_some_iff.mp h
      obtain ⟨y, _, h⟩ := Option.bind_eq_some_iff.mp h
      obtain ⟨⟨z1, z2, z3⟩, h2, hz⟩ := Option.map_eq_some_iff.mp h
      simp only [Prod.mk.injEq] at hz
      obtain ⟨rfl, rfl, rfl⟩ := hz
      obtain ⟨A1, inv1, ext1, hk1⟩ := register_shows inv rnd ⟨n, k⟩ (hn n (List.mem_cons_self ..)) inj d1 resp h1
      obtain ⟨log', A', q1, q2, q3⟩ := ih _ _ log A1 inv1 hr' (fun m hm => hn m (List.mem_cons_of_mem _ hm)) (by omega) _ _ _ h2
      refine ⟨log', A', q1, ext1.trans q2, fun x hx k' hk => ?_⟩
      rcases List.mem_cons.mp hx with rfl | hx
      · exact q2.merged _ _ (hk1 k' hk)
      · exact q3 x hx k' hk

/-! ### everybody is served -/

theorem answers_outline {C : Crypto} {sk vk n : Bytes} {str : DirSTR} {resp : Response} {a : ErrorCode × Option Bytes × Option Bytes}
    (h : Answers C sk vk n str resp a) (hn : (a.1 = ErrMalformedMessage ∨ a.1 = ErrDirectory) → a.2 = (none, none)) :
    resp.error = a.1 ∧ keysShown resp = a.2.1.toList ++ a.2.2.toList := by
  unfold Answers at h
  split at h
  · next e => rw [h, hn e]; exact ⟨rfl, rfl⟩
  · obtain ⟨ap, hr, hs⟩ := h
    obtain ⟨l, h1, h2⟩ := hs.value
    rw [hr]
    refine ⟨rfl, ?_⟩
    obtain ⟨c, t, p⟩ := a
    cases t <;> cases p <;> simp [keysShown, h1, h2, promise]

theorem lookupAnswer_error (A : AbsDir) (n : Bytes) (h : (A.lookupAnswer n).1 = ErrMalformedMessage ∨ (A.lookupAnswer n).1 = ErrDirectory) :
    (A.lookupAnswer n).2 = (none, none) := by
  unfold AbsDir.lookupAnswer at h ⊢
  split
  · rfl
  · next hn =>
    rw [if_neg hn] at h
    split at h
    · revert h; simp [ReqSuccess, ErrMalformedMessage, ErrDirectory]
    · split at h
      · revert h; simp [ReqSuccess, ErrMalformedMessage, ErrDirectory]
      · next h1 _ h2 => simp [h1, h2]

theorem registerAnswer_error (A : AbsDir) (rnd : Option Bytes) (n k : Bytes)
    (h : (A.registerAnswer rnd n k).1 = ErrMalformedMessage ∨ (A.registerAnswer rnd n k).1 = ErrDirectory) :
    (A.registerAnswer rnd n k).2 = (none, none) := by
  unfold AbsDir.registerAnswer at h ⊢
  by_cases hn : n = [] ∨ k = []
  · rw [if_pos hn]
  · rw [if_neg hn] at h ⊢
    cases hc : A.committed n with
    | some v => rw [hc] at h; revert h; simp [ReqNameExisted, ErrMalformedMessage, ErrDirectory]
    | none =>
      rw [hc] at h
      cases hp : A.pending n with
      | some v => rw [hp] at h; revert h; simp [ReqNameExisted, ErrMalformedMessage, ErrDirectory]
      | none =>
        rw [hp] at h
        by_cases hs : rnd.isSome = true
        · simp only [hs, if_true] at h; revert h; simp [ReqSuccess, ErrMalformedMessage, ErrDirectory]
        · simp [hs]

/-- all users in step with the directory -/
def UsersInv (C : Crypto) (sk vk : Bytes) (ns : List Bytes) (d : Directory) (log : List STR) (A : AbsDir) (us : Nat → Client) (lag : Nat → Nat) :
    Prop := ∀ i, SesInv C sk vk ns d log A (us i) (lag i)

theorem fresh_client {C sk vk ns d log A} (inv : DirInv C sk vk ns d log A)
    (pol : (∃ t, d.policies = newPolicies t (C.vrfPub vk)) ∧ (∃ t, d.pad.ad = newPolicies t (C.vrfPub vk)) ∧
      ∃ t, d.pad.latest.ad = newPolicies t (C.vrfPub vk)) {c : Client} (h : newClient d.latestSTR true (C.signPub sk) = some c) :
    SesInv C sk vk ns d log A c 0 := by
  simp only [newClient, if_true, Option.some.injEq] at h
  subst h
  exact ⟨inv, rfl, rfl, ⟨_, last_rev inv.pad.last, rfl⟩, fun n p hp => (nomatch hp), pol⟩

theorem users_served (C : Crypto) (sk vk : Bytes) (ns : List Bytes) (inj : IndexInj (fun k => (C.vrfProve vk k).1) ns)
    (spread : IndexSpread (fun k => (C.vrfProve vk k).1) ns) (ops : List UserOp) : ∀ d log A us lag,
    UsersInv C sk vk ns d log A us lag → (∀ n ∈ regNames (opsOf ops), n ∈ ns) → (∀ n ∈ userNames ops, n ∈ ns) →
    (∀ n ∈ userNames ops, C.vrfUsable n = true) → AllKeepUp lag A ops →
    log.length + dirUpdates (opsOf ops) ≤ 2 ^ 64 → ∀ d' log', d.runLog C log (opsOf ops) = some (d', log') →
    ∃ us' heard, runUsers C (C.signPub sk) d us ops = some (d', us', heard) ∧ heard.map Heard.outline = usersHear A ops := by
  induction ops with
  | nil =>
    intro d log A us lag i _ _ _ _ _ d' log' h
    simp only [opsOf, List.flatMap_nil, Directory.runLog, Option.some.injEq, Prod.mk.injEq] at h
    exact ⟨us, [], by simp [runUsers, h.1], rfl⟩
  | cons op ops ih =>
    intro d log A us lag i hr hn hus hk hlen d' log' h
    rw [opsOf_cons, regNames_append] at hr
    rw [opsOf_cons, dirUpdates_append] at hlen
    rw [opsOf_cons] at h
    have hr' : ∀ n ∈ regNames (opsOf ops), n ∈ ns := fun n hm => hr n (List.mem_append_right _ hm)
    have hsub : ∀ n ∈ ns, IndexSpread (fun k => (C.vrfProve vk k).1) (n :: ns) := by
      intro n hn a ha b hb e
      refine spread a ?_ b ?_ e
      · rcases List.mem_cons.mp ha with h | h; exact h ▸ hn; exact h
      · rcases List.mem_cons.mp hb with h | h; exact h ▸ hn; exact h
    cases op with
    | dir op =>
      simp only [UserOp.dirOps, List.singleton_append] at h hlen
      obtain ⟨d1, r, h1, h2⟩ := runLog_cons_some h
      obtain ⟨us', heard, g1, g2⟩ := ih d1 _ (A.step op) us (fun j => if op = .update then lag j + 1 else lag j)
        (fun j => ses_dir_step (i j) op (fun n hm => hr n (List.mem_append_left _ hm)) inj spread (by omega) d1 r h1) hr' hn hus hk
        (by rw [List.length_append, issued_length]; omega) d' log' h2
      refine ⟨us', heard, ?_, g2⟩
      simp only [runUsers, h1, Option.bind_some]
      exact g1
    | join j =>
      obtain ⟨c, hc⟩ : ∃ c, newClient d.latestSTR true (C.signPub sk) = some c := by simp [newClient]
      have hfresh := fresh_client (i 0).dir (i 0).pol hc
      obtain ⟨us', heard, g1, g2⟩ := ih d log A (setUser us j c) (fun x => if x = j then 0 else lag x) (by
        intro x
        by_cases e : x = j
        · subst e; simp only [setUser_same, if_true]; exact hfresh
        · rw [setUser_other _ _ e]; simp only [if_neg e]; exact i x) hr' hn hus hk (by omega) d' log' h
      refine ⟨us', heard, ?_, g2⟩
      simp only [runUsers, hc, Option.bind_some]
      exact g1
    | lookup j n key =>
      have hmem : n ∈ ns := hn n (List.mem_cons_self ..)
      obtain ⟨resp, g1, g2⟩ := keyLookup_spec (i 0).dir ⟨n⟩ (spread_inj (hsub n hmem))
      have g2 : Answers C sk vk n d.latestSTR resp (A.lookupAnswer n) := by
        rcases g2 with ⟨_, x, _⟩ | x
        · exact absurd (hsub n hmem) x
        · exact x
      simp only [UserOp.dirOps, List.singleton_append] at h hlen
      obtain ⟨d1, r, h1, h2⟩ := runLog_cons_some h
      have hd1 : d1 = d := by
        simp only [Directory.step, g1, Option.map_some, Option.some.injEq, Prod.mk.injEq] at h1
        exact h1.1.symm
      subst hd1
      simp only [DirOp.issued, List.append_nil] at h2
      have hlag : answered (A.lookupAnswer n) = true → lag j ≤ 1 := by
        intro ha; simp only [AllKeepUp, if_pos ha] at hk; exact hk.1
      obtain ⟨c1, k1, k2⟩ := ses_client (i j) (i j).dir rfl (i j).pol (fun _ _ h => h) KeyLookupType n (hus n (List.mem_cons_self ..)) key
        (A.lookupAnswer n) resp g2 hlag (lookup_shape A (i 0).dir.disj n)
      have hk' : AllKeepUp (fun x => if answered (A.lookupAnswer n) then (if x = j then 0 else lag x) else lag x) A ops := by
        simp only [AllKeepUp] at hk
        split at hk
        · next e => simp only [e, if_true]; exact hk.2
        · next e => simp only [if_neg e]; exact hk
      obtain ⟨us', heard, q1, q2⟩ := ih d1 log A (setUser us j c1) _ (by
        intro x
        by_cases e : x = j
        · subst e
          rw [setUser_same]
          simp only [if_true]
          exact k2
        · rw [setUser_other _ _ e]
          simp only [if_neg e, ite_self]
          exact i x) hr' (fun m hm => hn m (List.mem_cons_of_mem _ hm)) (fun m hm => hus m (List.mem_cons_of_mem _ hm)) hk' (by omega) d' log' h2
      obtain ⟨o1, o2⟩ := answers_outline g2 (lookupAnswer_error A n)
      refine ⟨us', ⟨j, n, key, resp, verdict key (A.lookupAnswer n)⟩ :: heard, ?_, ?_⟩
      · simp only [runUsers, g1, Option.bind_some, k1, q1, Option.map_some]
      · simp only [List.map_cons, usersHear, q2, Heard.outline, outline, o1, o2]
    | register j rnd n k =>
      have hmem : n ∈ ns := hn n (List.mem_cons_self ..)
      obtain ⟨d2, resp, g1, _, _, g2⟩ := register_spec (i 0).dir rnd ⟨n, k⟩ hmem inj
      have g2 : Answers C sk vk n d.latestSTR resp (A.registerAnswer rnd n k) := by
        rcases g2 with ⟨_, x⟩ | x
        · exact absurd spread x
        · exact x
      simp only [UserOp.dirOps, List.singleton_append] at h hlen
      obtain ⟨d1, r, h1, h2⟩ := runLog_cons_some h
      have i1 := fun x => ses_dir_step (i x) (.register rnd ⟨n, k⟩) (fun n hm => hr n (List.mem_append_left _ hm)) inj spread (by omega) d1 r h1
      have hd1 : d1 = d2 := by
        simp only [Directory.step, g1, Option.map_some, Option.some.injEq, Prod.mk.injEq] at h1
        exact h1.1.symm
      subst hd1
      simp only [DirOp.issued, List.append_nil, reduceCtorEq, if_false] at h2 i1
      have hlat := (register_keeps g1).2.2
      have hlag : answered (A.registerAnswer rnd n k) = true → lag j ≤ 1 := by
        intro ha; simp only [AllKeepUp, if_pos ha] at hk; exact hk.1
      have hext : ∀ m v, A.merged m = some v → (A.step (.register rnd ⟨n, k⟩)).merged m = some v := by
        intro m v hm
        simp only [AbsDir.step]
        split
        · next hc =>
          simp only [AbsDir.merged, AbsDir.add]
          by_cases e : m = n
          · subst e; rw [hc.2.2.1] at hm; nomatch hm
          · simp only [if_neg e]; exact hm
        · exact hm
      obtain ⟨c1, k1, k2⟩ := ses_client (i j) (i1 j).dir hlat (i1 j).pol hext RegistrationType n (hus n (List.mem_cons_self ..)) (some k)
        (A.registerAnswer rnd n k) resp g2 hlag (register_shape A (i 0).dir.disj rnd n k)
      have hk' : AllKeepUp (fun x => if answered (A.registerAnswer rnd n k) then (if x = j then 0 else lag x) else lag x)
          (A.step (.register rnd ⟨n, k⟩)) ops := by
        simp only [AllKeepUp] at hk
        split at hk
        · next e => simp only [e, if_true]; exact hk.2
        · next e => simp only [if_neg e]; exact hk
      obtain ⟨us', heard, q1, q2⟩ := ih d1 log _ (setUser us j c1) _ (by
        intro x
        by_cases e : x = j
        · subst e
          rw [setUser_same]
          simp only [if_true]
          exact k2
        · rw [setUser_other _ _ e]
          simp only [if_neg e, ite_self]
          exact i1 x) hr' (fun m hm => hn m (List.mem_cons_of_mem _ hm)) (fun m hm => hus m (List.mem_cons_of_mem _ hm)) hk' (by omega) d' log' h2
      obtain ⟨o1, o2⟩ := answers_outline g2 (registerAnswer_error A rnd n k)
      refine ⟨us', ⟨j, n, some k, resp, verdict (some k) (A.registerAnswer rnd n k)⟩ :: heard, ?_, ?_⟩
      · simp only [runUsers, g1, Option.bind_some, k1, q1, Option.map_some]
      · simp only [List.map_cons, usersHear, q2, Heard.outline, outline, o1, o2]

/-! ### once a key is shown, everybody is shown it -/

def NamesApart (A : AbsDir) : Prop := ∀ n v, A.pending n = some v → A.committed n = none

theorem NamesApart.step {A : AbsDir} (h : NamesApart A) (op : DirOp) : NamesApart (A.step op) := by
  cases op with
  | register rnd req =>
    simp only [AbsDir.step]
    split
    · next hc =>
      intro n v hp
      simp only [AbsDir.add] at hp ⊢
      split at hp
      · next e =>
        subst e
        have hm := hc.2.2.1
        unfold AbsDir.merged at hm
        split at hm
        · nomatch hm
        · exact hm
      · exact h n v hp
    · exact h
  | update => intro n v hp; nomatch hp
  | keyLookup _ => exact h
  | keyLookupInEpoch _ => exact h
  | monitor _ => exact h
  | getSTRHistory _ => exact h
  | setPolicies _ => exact h

theorem step_merged (A : AbsDir) (op : DirOp) {n v : Bytes} (h : A.merged n = some v) : (A.step op).merged n = some v := by
  cases op with
  | register rnd req =>
    simp only [AbsDir.step]
    split
    · next hc =>
      simp only [AbsDir.merged, AbsDir.add]
      by_cases e : n = req.username
      · subst e; rw [hc.2.2.1] at h; nomatch h
      · simp only [if_neg e]; exact h
    · exact h
  | update => simpa [AbsDir.step, AbsDir.nextEpoch, AbsDir.merged] using h
  | keyLookup _ => exact h
  | keyLookupInEpoch _ => exact h
  | monitor _ => exact h
  | getSTRHistory _ => exact h
  | setPolicies _ => exact h

theorem verdict_key {key : Option Bytes} {a : ErrorCode × Option Bytes × Option Bytes} {v : Bytes}
    (hs : a.1 = ReqSuccess ∨ a.1 = ReqNameExisted) (hv : a.2.1.or a.2.2 = some v) :
    verdict key a = if key = none ∨ key = some v then none else some CheckBindingsDiffer := by
  have hne : ¬ (a.1 = ErrMalformedMessage ∨ a.1 = ErrDirectory) := by
    rcases hs with h | h <;> rw [h] <;> decide
  unfold verdict
  rw [if_neg hne, hv]
  cases key with
  | none => simp
  | some k =>
    by_cases e : v = k
    · subst e; simp
    · have e' : ¬ k = v := fun x => e x.symm
      simp [e, e']

theorem lookup_says {A : AbsDir} (dj : NamesApart A) {n v : Bytes} (hm : A.merged n = some v) (i : Nat) (key : Option Bytes) :
    SaysKey v (outline i n key (A.lookupAnswer n)) := by
  by_cases hn : n = []
  · left; simp [outline, AbsDir.lookupAnswer, hn]
  · right
    unfold AbsDir.merged at hm
    cases hp : A.pending n with
    | some w =>
      rw [hp] at hm
      have hw : w = v := Option.some.inj hm
      subst hw
      have e : A.lookupAnswer n = (ReqSuccess, none, some w) := by simp [AbsDir.lookupAnswer, hn, dj n w hp, hp]
      rw [e]
      exact ⟨rfl, .inl rfl, @verdict_key key (ReqSuccess, none, some w) w (.inl rfl) rfl⟩
    | none =>
      rw [hp] at hm
      have e : A.lookupAnswer n = (ReqSuccess, some v, none) := by
        have hm : A.committed n = some v := hm
        simp [AbsDir.lookupAnswer, hn, hm]
      rw [e]
      exact ⟨rfl, .inl rfl, @verdict_key key (ReqSuccess, some v, none) v (.inl rfl) rfl⟩

theorem register_says {A : AbsDir} (dj : NamesApart A) {n v : Bytes} (hm : A.merged n = some v) (i : Nat) (rnd : Option Bytes) (k : Bytes) :
    SaysKey v (outline i n (some k) (A.registerAnswer rnd n k)) := by
  by_cases hn : n = [] ∨ k = []
  · left
    refine ⟨by simp [outline, AbsDir.registerAnswer, hn], ?_⟩
    rcases hn with h | h
    · exact .inl h
    · exact .inr (by rw [h]; rfl)
  · right
    unfold AbsDir.merged at hm
    cases hp : A.pending n with
    | some w =>
      rw [hp] at hm
      have hw : w = v := Option.some.inj hm
      subst hw
      have e : A.registerAnswer rnd n k = (ReqNameExisted, none, some w) := by simp [AbsDir.registerAnswer, hn, dj n w hp, hp]
      rw [e]
      exact ⟨rfl, .inr rfl, @verdict_key (some k) (ReqNameExisted, none, some w) w (.inr rfl) rfl⟩
    | none =>
      rw [hp] at hm
      have e : A.registerAnswer rnd n k = (ReqNameExisted, some v, none) := by
        have hm : A.committed n = some v := hm
        simp [AbsDir.registerAnswer, hn, hm]
      rw [e]
      exact ⟨rfl, .inr rfl, @verdict_key (some k) (ReqNameExisted, some v, none) v (.inr rfl) rfl⟩

theorem hear_known (ops : List UserOp) : ∀ (A : AbsDir) (n v : Bytes), NamesApart A → A.merged n = some v →
    ∀ o ∈ usersHear A ops, o.name = n → SaysKey v o := by
  induction ops with
  | nil => intro A n v _ _ o ho; nomatch ho
  | cons op ops ih =>
    intro A n v dj hm o ho hon
    cases op with
    | dir op => exact ih _ n v (dj.step op) (step_merged A op hm) o ho hon
    | join i => exact ih A n v dj hm o ho hon
    | lookup i m key =>
      rcases List.mem_cons.mp ho with rfl | ho
      · have hon : m = n := hon
        subst hon
        exact lookup_says dj hm i key
      · exact ih A n v dj hm o ho hon
    | register i rnd m k =>
      rcases List.mem_cons.mp ho with rfl | ho
      · have hon : m = n := hon
        subst hon
        exact register_says dj hm i rnd k
      · exact ih _ n v (dj.step _) (step_merged A _ hm) o ho hon

theorem shown_merged {A : AbsDir} {n k : Bytes} (dj : NamesApart A) (i : Nat) (key : Option Bytes)
    (h : k ∈ (outline i n key (A.lookupAnswer n)).shown) : A.merged n = some k := by
  unfold AbsDir.lookupAnswer at h
  by_cases hn : n = []
  · simp [outline, hn] at h
  · rw [if_neg hn] at h
    cases hc : A.committed n with
    | some v =>
      rw [hc] at h
      have : k = v := by simpa [outline] using h
      rw [this]
      exact merged_of_committed dj hc
    | none =>
      rw [hc] at h
      cases hp : A.pending n with
      | some v =>
        rw [hp] at h
        have : k = v := by simpa [outline] using h
        rw [this]; simp [AbsDir.merged, hp]
      | none => rw [hp] at h; simp [outline] at h

theorem shown_registered {A : AbsDir} {n k : Bytes} (dj : NamesApart A) (i : Nat) (rnd : Option Bytes) (k' : Bytes)
    (h : k ∈ (outline i n (some k') (A.registerAnswer rnd n k')).shown) : (A.step (.register rnd ⟨n, k'⟩)).merged n = some k := by
  unfold AbsDir.registerAnswer at h
  by_cases hn : n = [] ∨ k' = []
  · simp [outline, hn] at h
  · rw [if_neg hn] at h
    cases hc : A.committed n with
    | some v =>
      rw [hc] at h
      have : k = v := by simpa [outline] using h
      rw [this]
      exact step_merged A _ (merged_of_committed dj hc)
    | none =>
      rw [hc] at h
      cases hp : A.pending n with
      | some v =>
        rw [hp] at h
        have : k = v := by simpa [outline] using h
        rw [this]; exact step_merged A _ (by simp [AbsDir.merged, hp])
      | none =>
        rw [hp] at h
        by_cases hr : rnd.isSome = true
        · have : k = k' := by simpa [outline, hr] using h
          rw [this]
          have hn' := not_or.mp hn
          simp [AbsDir.step, AbsDir.merged, AbsDir.add, hp, hc, hr, hn'.1, hn'.2]
        · simp [outline, hr] at h

theorem hear_after (ops : List UserOp) : ∀ (A : AbsDir) (l₁ l₂ : List Outline) (o : Outline) (k : Bytes), NamesApart A →
    usersHear A ops = l₁ ++ o :: l₂ → k ∈ o.shown → ∀ o' ∈ l₂, o'.name = o.name → SaysKey k o' := by
  induction ops with
  | nil =>
    intro A l₁ l₂ o k _ h
    cases l₁ <;> nomatch h
  | cons op ops ih =>
    intro A l₁ l₂ o k dj h hk
    cases op with
    | dir op => exact ih _ l₁ l₂ o k (dj.step op) h hk
    | join i => exact ih A l₁ l₂ o k dj h hk
    | lookup i m key =>
      cases l₁ with
      | nil =>
        simp only [usersHear, List.nil_append, List.cons.injEq] at h
        obtain ⟨rfl, rfl⟩ := h
        exact hear_known ops A m k dj (shown_merged dj i key hk)
      | cons x l₁ =>
        simp only [usersHear, List.cons_append, List.cons.injEq] at h
        exact ih A l₁ l₂ o k dj h.2 hk
    | register i rnd m k' =>
      cases l₁ with
      | nil =>
        simp only [usersHear, List.nil_append, List.cons.injEq] at h
        obtain ⟨rfl, rfl⟩ := h
        exact hear_known ops _ m k (dj.step _) (shown_registered dj i rnd k' hk)
      | cons x l₁ =>
        simp only [usersHear, List.cons_append, List.cons.injEq] at h
        exact ih _ l₁ l₂ o k (dj.step _) h.2 hk

end Coniks
