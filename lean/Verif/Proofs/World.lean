import Verif.Spec.World
import Verif.Props.Trio
import Verif.Props.AuditLog
/-
The events of a world that concern one user, her directory and the auditor's business with it are a run of the three alone.
-/
namespace Coniks.Props
open Coniks Coniks.Spec

/-- the three, and what the auditor keeps of the directory -/
structure AgreeAt {n : Nat} (P : Places n) (W : World n) (u : Nat) (T : Trio) : Prop where
  dir : T.dir = W.dirs (P.home u)
  user : T.user = W.users u
  log : T.log (P.id (P.home u)) = W.log (P.id (P.home u))

theorem putAt_same {α β : Type} [DecidableEq α] (f : α → β) (a : α) (b : β) : putAt f a b a = b := if_pos rfl
theorem putAt_other {α β : Type} [DecidableEq α] (f : α → β) {a x : α} (b : β) (h : x ≠ a) : putAt f a b x = f x := if_neg h

/-- an audit looks at nothing but the entry of its directory -/
theorem audit_entry (C : Crypto) {l l' : AuditLog} {id : Arr32} (hl : l' id = l id) (msg : Response) :
    (l'.audit C id msg).map (fun x => (x.1 id, x.2)) = (l.audit C id msg).map (fun x => (x.1 id, x.2)) := by
  unfold AuditLog.audit
  rw [hl]
  cases h : l id with
  | none => simp only [Option.map_some, hl, h]
  | some hist =>
    dsimp only
    cases hist.audit C msg <;> simp [AuditLog.set]

theorem log_elsewhere (C : Crypto) {l l' : AuditLog} {op : LogOp} {e : Option ErrorCode} (h : logStep C l op = some (l', e)) {id : Arr32}
    (hid : op.about C ≠ some id) : l' id = l id :=
  (C43_isolation C id [op] (by simpa using hid) l l' (by simp only [logAfter, h, Option.bind_some])).1

theorem session_one (C : Crypto) (d : Directory) (cc : Client) (op : SesOp) :
    (runSession C d cc [.dir op.dirOp]) = (d.step C op.dirOp).map fun x => (x.1, cc, []) := by
  simp only [runSession]
  cases d.step C op.dirOp <;> rfl

/-- a call and the handling of its answer: the directory does what it does for anybody -/
theorem session_dir (C : Crypto) {d : Directory} {cc : Client} {op : SesOp} {x : Directory × Client × List (Option ErrorCode)}
    (h : runSession C d cc [op] = some x) : ∃ r, d.step C op.dirOp = some (x.1, r) := by
  cases op with
  | dir op =>
    rw [show runSession C d cc [.dir op] = (d.step C op).bind fun x => some (x.1, cc, []) from rfl] at h
    obtain ⟨y, h1, h2⟩ := Option.bind_eq_some_iff.mp h
    cases h2
    exact ⟨y.2, h1⟩
  | lookup nm key =>
    simp only [runSession] at h
    obtain ⟨resp, h1, h2⟩ := Option.bind_eq_some_iff.mp h
    obtain ⟨y, h3, h4⟩ := Option.bind_eq_some_iff.mp h2
    cases h4
    exact ⟨some resp, by show (d.keyLookup C ⟨nm⟩).map _ = _; rw [h1]; rfl⟩
  | register rnd nm k =>
    simp only [runSession] at h
    obtain ⟨x1, h1, h2⟩ := Option.bind_eq_some_iff.mp h
    obtain ⟨y, h3, h4⟩ := Option.bind_eq_some_iff.mp h2
    cases h4
    exact ⟨some x1.2, by show (d.register C rnd ⟨nm, k⟩).map _ = _; rw [h1]; rfl⟩

theorem session_dir_ops (C : Crypto) (d : Directory) (cc : Client) (op : DirOp) :
    runSession C d cc [.dir op] = (d.step C op).map fun x => (x.1, cc, []) := by
  simp only [runSession]
  cases d.step C op <;> rfl

/-- one event -/
theorem world_step {n : Nat} (C : Crypto) (P : Places n) (hid : ∀ j k, P.id j = P.id k → j = k) {W W' : World n} {op : WorldOp n}
    (ho : ∀ o, op = .other o → ∀ k, o.about C ≠ some (P.id k)) {r : List (Option ErrorCode)} (h : W.step C P op = some (r, W')) {u : Nat} {T : Trio}
    (a : AgreeAt P W u T) :
    (op.forUser P u = none ∧ op.heardBy P u = false ∧ AgreeAt P W' u T) ∨
    ∃ t T', op.forUser P u = some t ∧ T.step C (P.id (P.home u)) t = some (if op.heardBy P u then r else [], T') ∧ AgreeAt P W' u T' := by
  cases op with
  | dir k op =>
    obtain ⟨x, h1, h2⟩ := Option.map_eq_some_iff.mp h
    cases h2
    by_cases hk : k = P.home u
    · subst hk
      refine .inr ⟨.ses (.dir op), { T with dir := x.1 }, by simp [WorldOp.forUser], ?_, ⟨(putAt_same _ _ _).symm, a.user, a.log⟩⟩
      show (runSession C T.dir T.user [.dir op]).map _ = _
      rw [session_dir_ops, a.dir, h1]
      simp [WorldOp.heardBy]
    · exact .inl ⟨by simp [WorldOp.forUser, hk], rfl, a.dir.trans (putAt_other _ _ (fun e => hk e.symm)).symm, a.user, a.log⟩
  | call v op =>
    obtain ⟨x, h1, h2⟩ := Option.map_eq_some_iff.mp h
    cases h2
    by_cases hv : v = u
    · subst hv
      refine .inr ⟨.ses op, { T with dir := x.1, user := x.2.1 }, by simp [WorldOp.forUser], ?_, ⟨(putAt_same _ _ _).symm, (putAt_same _ _ _).symm, a.log⟩⟩
      show (runSession C T.dir T.user [op]).map _ = _
      rw [a.dir, a.user, h1]
      simp [WorldOp.heardBy]
    · have hu : T.user = putAt W.users v x.2.1 u := a.user.trans (putAt_other _ _ (fun e => hv e.symm)).symm
      by_cases hk : P.home v = P.home u
      · obtain ⟨y, hy⟩ := session_dir C h1
        refine .inr ⟨.ses (.dir op.dirOp), { T with dir := x.1 }, by simp [WorldOp.forUser, hv, hk], ?_, ⟨?_, hu, a.log⟩⟩
        · show (runSession C T.dir T.user [.dir op.dirOp]).map _ = _
          rw [session_dir_ops, a.dir, ← hk, hy]
          simp [WorldOp.heardBy, hv]
        · show x.1 = putAt W.dirs (P.home v) x.1 (P.home u)
          rw [hk, putAt_same]
      · exact .inl ⟨by simp [WorldOp.forUser, hv, hk], by simp [WorldOp.heardBy, hv], a.dir.trans (putAt_other _ _ (fun e => hk e.symm)).symm, hu, a.log⟩
  | audit k s e =>
    obtain ⟨msg, h1, h2⟩ := Option.bind_eq_some_iff.mp h
    obtain ⟨x, h3, h4⟩ := Option.map_eq_some_iff.mp h2
    cases h4
    by_cases hk : k = P.home u
    · subst hk
      have hc := audit_entry C a.log msg
      rw [h3, Option.map_some] at hc
      obtain ⟨y, h5, h6⟩ := Option.map_eq_some_iff.mp hc
      simp only [Prod.mk.injEq] at h6
      refine .inr ⟨.audit s e, { T with log := y.1 }, by simp [WorldOp.forUser], ?_, ⟨a.dir, a.user, h6.1⟩⟩
      show (T.dir.getSTRHistory ⟨s, e⟩).bind _ = _
      rw [a.dir, h1, Option.bind_some, h5]
      simp [WorldOp.heardBy, h6.2]
    · refine .inl ⟨by simp [WorldOp.forUser, hk], by simp [WorldOp.heardBy, hk], a.dir, a.user, a.log.trans (Eq.symm ?_)⟩
      exact log_elsewhere C (op := .audit (P.id k) msg) (e := x.2) h3 (fun e => hk (hid _ _ (Option.some.inj e)))
  | check v s e =>
    obtain ⟨x, h1, h2⟩ := Option.map_eq_some_iff.mp h
    cases h2
    by_cases hv : v = u
    · subst hv
      refine .inr ⟨.check s e, T, by simp [WorldOp.forUser], ?_, a⟩
      have : T.log.getObservedSTRs ⟨P.id (P.home v), s, e⟩ = W.log.getObservedSTRs ⟨P.id (P.home v), s, e⟩ := by
        unfold AuditLog.getObservedSTRs
        dsimp only
        rw [a.log]
      show (T.user.checkEquivocation C (T.log.getObservedSTRs ⟨P.id (P.home v), s, e⟩)).map _ = _
      rw [this, a.user, h1]
      simp [WorldOp.heardBy]
    · exact .inl ⟨by simp [WorldOp.forUser, hv], by simp [WorldOp.heardBy, hv], a⟩
  | join v =>
    have h : (newClient (W.dirs (P.home v)).latestSTR true (C.signPub (W.dirs (P.home v)).pad.signKey)).map
      (fun x => (([] : List (Option ErrorCode)), { W with users := putAt W.users v x })) = some (r, W') := h
    obtain ⟨x, h1, h2⟩ := Option.map_eq_some_iff.mp h
    cases h2
    by_cases hv : v = u
    · subst hv
      refine .inr ⟨.join, { T with user := x }, by simp [WorldOp.forUser], ?_, ⟨a.dir, (putAt_same _ _ _).symm, a.log⟩⟩
      have hs : T.step C (P.id (P.home v)) .join = (newClient T.dir.latestSTR true (C.signPub T.dir.pad.signKey)).map
        fun x => ([], { T with user := x }) := rfl
      rw [hs, a.dir, h1]
      simp [WorldOp.heardBy]
    · exact .inl ⟨by simp [WorldOp.forUser, hv], by simp [WorldOp.heardBy, hv], a.dir, a.user.trans (putAt_other _ _ (fun e => hv e.symm)).symm, a.log⟩
  | other op =>
    obtain ⟨x, h1, h2⟩ := Option.map_eq_some_iff.mp h
    cases h2
    exact .inl ⟨rfl, rfl, a.dir, a.user, a.log.trans (log_elsewhere C (op := op) (e := x.2) h1 (ho op rfl _)).symm⟩

/-- an event that crashes somebody crashes the three whom it concerns, unless it is somebody else's business with the auditor -/
theorem world_crash {n : Nat} (C : Crypto) (P : Places n) (hh : ∀ k, ∃ u, P.home u = k) {W : World n} {op : WorldOp n} (h : W.step C P op = none) :
    (∃ u t, op.forUser P u = some t ∧ ∀ T, AgreeAt P W u T → T.step C (P.id (P.home u)) t = none) ∨ ∃ o, op = .other o ∧ logStep C W.log o = none := by
  cases op with
  | dir k op =>
    obtain ⟨u, rfl⟩ := hh k
    refine .inl ⟨u, .ses (.dir op), by simp [WorldOp.forUser], fun T a => ?_⟩
    show (runSession C T.dir T.user [.dir op]).map _ = _
    rw [session_dir_ops, a.dir, Option.map_eq_none_iff.mp h]
    rfl
  | call u op =>
    refine .inl ⟨u, .ses op, by simp [WorldOp.forUser], fun T a => ?_⟩
    show (runSession C T.dir T.user [op]).map _ = _
    rw [a.dir, a.user, Option.map_eq_none_iff.mp h]
    rfl
  | audit k s e =>
    obtain ⟨u, rfl⟩ := hh k
    refine .inl ⟨u, .audit s e, by simp [WorldOp.forUser], fun T a => ?_⟩
    show (T.dir.getSTRHistory ⟨s, e⟩).bind _ = _
    rw [a.dir]
    have h : ((W.dirs (P.home u)).getSTRHistory ⟨s, e⟩).bind (fun msg => (W.log.audit C (P.id (P.home u)) msg).map fun x => ([x.2], { W with log := x.1 })) = none := h
    cases hm : (W.dirs (P.home u)).getSTRHistory ⟨s, e⟩ with
    | none => rfl
    | some msg =>
      rw [hm, Option.bind_some] at h
      have hc := audit_entry C a.log msg
      rw [Option.map_eq_none_iff.mp h] at hc
      rw [Option.bind_some, Option.map_eq_none_iff.mp hc]
      rfl
  | check u s e =>
    refine .inl ⟨u, .check s e, by simp [WorldOp.forUser], fun T a => ?_⟩
    have : T.log.getObservedSTRs ⟨P.id (P.home u), s, e⟩ = W.log.getObservedSTRs ⟨P.id (P.home u), s, e⟩ := by
      unfold AuditLog.getObservedSTRs
      dsimp only
      rw [a.log]
    show (T.user.checkEquivocation C (T.log.getObservedSTRs ⟨P.id (P.home u), s, e⟩)).map _ = _
    rw [this, a.user, Option.map_eq_none_iff.mp h]
    rfl
  | join u => cases h
  | other o => exact .inr ⟨o, rfl, Option.map_eq_none_iff.mp h⟩

/-- a run, as it is for one user -/
theorem world_run {n : Nat} (C : Crypto) (P : Places n) (hid : ∀ j k, P.id j = P.id k → j = k) (evs : List (WorldOp n)) :
    (∀ o, .other o ∈ evs → ∀ k, o.about C ≠ some (P.id k)) → ∀ (W W' : World n) res, W.run C P evs = some (res, W') → ∀ u T, AgreeAt P W u T →
    ∃ T', T.run C (P.id (P.home u)) (evs.filterMap (WorldOp.forUser P u)) = some (heardIn P u evs res, T') ∧ AgreeAt P W' u T' := by
  induction evs with
  | nil =>
    intro _ W W' res h u T a
    cases h
    exact ⟨T, rfl, a⟩
  | cons op evs ih =>
    intro ho W W' res h u T a
    obtain ⟨⟨r, W1⟩, h1, h2⟩ := Option.bind_eq_some_iff.mp h
    obtain ⟨⟨res', W2⟩, h3, h4⟩ := Option.map_eq_some_iff.mp h2
    cases h4
    have hr := ih (fun o h => ho o (List.mem_cons_of_mem _ h)) W1 W2 res' h3 u
    rcases world_step C P hid (fun o e => ho o (e ▸ List.mem_cons_self ..)) h1 a with ⟨g1, g2, g3⟩ | ⟨t, T1, g1, g2, g3⟩
    · obtain ⟨T', k1, k2⟩ := hr T g3
      refine ⟨T', ?_, k2⟩
      rw [List.filterMap_cons_none g1, k1]
      simp [heardIn, g2]
    · obtain ⟨T', k1, k2⟩ := hr T1 g3
      refine ⟨T', ?_, k2⟩
      rw [List.filterMap_cons_some g1]
      show (T.step C (P.id (P.home u)) t).bind _ = _
      rw [g2, Option.bind_some, k1]
      rfl

/-- a run that crashes -/
theorem world_run_crash {n : Nat} (C : Crypto) (P : Places n) (hid : ∀ j k, P.id j = P.id k → j = k) (hh : ∀ k, ∃ u, P.home u = k) (evs : List (WorldOp n)) :
    (∀ o, .other o ∈ evs → ∀ k, o.about C ≠ some (P.id k)) → ∀ (W : World n), W.run C P evs = none → ∀ T : Nat → Trio, (∀ u, AgreeAt P W u (T u)) →
    (∃ u, (T u).run C (P.id (P.home u)) (evs.filterMap (WorldOp.forUser P u)) = none) ∨ ∃ o l, .other o ∈ evs ∧ logStep C l o = none := by
  induction evs with
  | nil => intro _ W h; cases h
  | cons op evs ih =>
    intro ho W h T a
    cases h1 : W.step C P op with
    | none =>
      rcases world_crash C P hh h1 with ⟨u, t, g1, g2⟩ | ⟨o, rfl, g⟩
      · refine .inl ⟨u, ?_⟩
        rw [List.filterMap_cons_some g1]
        show ((T u).step C (P.id (P.home u)) t).bind _ = _
        rw [g2 _ (a u)]
        rfl
      · exact .inr ⟨o, _, List.mem_cons_self .., g⟩
    | some x =>
      obtain ⟨r, W1⟩ := x
      have h2 : W1.run C P evs = none := by
        have h : (W.step C P op).bind (fun x => (World.run C P x.2 evs).map fun y => (x.1 :: y.1, y.2)) = none := h
        rw [h1, Option.bind_some] at h
        exact Option.map_eq_none_iff.mp h
      have hs := fun u => world_step C P hid (fun o e => ho o (e ▸ List.mem_cons_self ..)) h1 (a u)
      have hT : ∀ u, ∃ T1, AgreeAt P W1 u T1 ∧ (T1.run C (P.id (P.home u)) (evs.filterMap (WorldOp.forUser P u)) = none →
          (T u).run C (P.id (P.home u)) ((op :: evs).filterMap (WorldOp.forUser P u)) = none) := by
        intro u
        rcases hs u with ⟨g1, _, g3⟩ | ⟨t, T1, g1, g2, g3⟩
        · exact ⟨T u, g3, fun k => by rw [List.filterMap_cons_none g1]; exact k⟩
        · refine ⟨T1, g3, fun k => ?_⟩
          rw [List.filterMap_cons_some g1]
          show ((T u).step C (P.id (P.home u)) t).bind _ = _
          rw [g2, Option.bind_some, k]
          rfl
      obtain ⟨T1, hT1⟩ := Classical.axiomOfChoice hT
      rcases ih (fun o h => ho o (List.mem_cons_of_mem _ h)) W1 h2 T1 (fun u => (hT1 u).1) with ⟨u, k⟩ | ⟨o, l, k1, k2⟩
      · exact .inl ⟨u, (hT1 u).2 k⟩
      · exact .inr ⟨o, l, List.mem_cons_of_mem _ k1, k2⟩

end Coniks.Props
