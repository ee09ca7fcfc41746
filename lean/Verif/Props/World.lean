import Verif.Proofs.World
import Verif.Props.AuditCrash
import Verif.Proofs.EvalDir
/-
C93. One auditor for any number of directories.
-/
namespace Coniks.Props
open Coniks Coniks.Spec

/-- The call with which the auditor begins to follow a directory whose STRs are `log`: `InitHistory` with the STRs `0 .. known`. -/
def _root_.Coniks.Spec.HonestDir.init (C : Crypto) (H : HonestDir) (log : List STR) (addr : Bytes) : LogOp :=
  .init addr (C.signPub H.sk) ((log.take (H.known + 1)).map fun s => some s.toDir)

/-- The beginning: each directory has its history behind it; the auditor began to follow all of them, in some order; user `u` was created (`New`)
with the public key of her directory and its STR of epoch `joined u`. -/
structure WorldStart {n : Nat} (C : Crypto) (H : Fin n → HonestDir) (joined : Nat → Nat) (P : Places n) (W : World n) : Prop where
  start : ∃ (logs : Fin n → List STR) (order : List (Fin n)) (addr : Fin n → Bytes),
    (∀ k, dirAfter C (H k).t0 (H k).sk (H k).vk (H k).size (H k).r₁ (H k).r₂ (H k).pre = some (W.dirs k, logs k)) ∧
    (∀ k, (H k).known < (logs k).length) ∧
    (∀ k, ∃ first, (logs k)[0]? = some first ∧ P.id k = dirId C first.toDir) ∧
    (∀ k, k ∈ order) ∧ order.Nodup ∧
    logAfter C newAuditLog (order.map fun k => (H k).init C (logs k) (addr k)) = some W.log ∧
    ∀ u, ∃ s, (logs (P.home u))[joined u]? = some s ∧ newClient s.toDir true (C.signPub (H (P.home u)).sk) = some (W.users u)

theorem log_append (C : Crypto) (a b : List LogOp) : ∀ l l', logAfter C l (a ++ b) = some l' → ∃ m, logAfter C l a = some m ∧ logAfter C m b = some l' := by
  induction a with
  | nil => intro l l' h; exact ⟨l, rfl, h⟩
  | cons op a ih =>
    intro l l' h
    obtain ⟨x, h1, h2⟩ := Option.bind_eq_some_iff.mp h
    obtain ⟨m, h3, h4⟩ := ih _ _ h2
    exact ⟨m, by simp only [logAfter, h1, Option.bind_some]; exact h3, h4⟩

/-- the first `known + 1` STRs begin with the first one -/
theorem known_cons {log : List STR} {first : STR} (h : log[0]? = some first) (k : Nat) :
    ((log.take (k + 1)).map fun s => some s.toDir) = some first.toDir :: ((log.drop 1).take k).map fun s => some s.toDir := by
  cases log with
  | nil => simp at h
  | cons f rest =>
    simp only [List.getElem?_cons_zero, Option.some.injEq] at h
    subst h
    simp

theorem first_epoch_zero {C : Crypto} {t0 : UInt64} {sk vk : Bytes} {size : Nat} {r₁ r₂ : Bytes} {ops : List DirOp} (hlt : dirUpdates ops < 2 ^ 64)
    {d : Directory} {log : List STR} (h : dirAfter C t0 sk vk size r₁ r₂ ops = some (d, log)) {first : STR} (hf : log[0]? = some first) :
    first.toDir.core.epoch = 0 := by
  obtain ⟨inv, _⟩ := dirAfter_exact C t0 sk vk size r₁ r₂ ops hlt d log h
  rw [show first.toDir.core = first.core from rfl, inv.pad.epoch _ _ hf]; rfl

/-- the beginning, for one user: a beginning of C85 -/
theorem start_trio {n : Nat} {C : Crypto} {H : Fin n → HonestDir} {joined : Nat → Nat} {P : Places n} {W : World n} (h : WorldStart C H joined P W)
    (hid : ∀ j k, P.id j = P.id k → j = k) (hlt : ∀ k, dirUpdates (H k).pre < 2 ^ 64) (u : Nat) :
    ∃ T, TrioStart C (H (P.home u)).t0 (H (P.home u)).sk (H (P.home u)).vk (H (P.home u)).size (H (P.home u)).r₁ (H (P.home u)).r₂ (H (P.home u)).pre
      (H (P.home u)).known (joined u) (P.id (P.home u)) T ∧ AgreeAt P W u T := by
  obtain ⟨logs, order, addr, h1, h2, h3, h4, h5, h6, h7⟩ := h.start
  obtain ⟨first, f1, f2⟩ := h3 (P.home u)
  obtain ⟨s, s1, s2⟩ := h7 u
  have habout : ∀ k, ((H k).init C (logs k) (addr k)).about C = some (P.id k) := by
    intro k
    obtain ⟨f, g1, g2⟩ := h3 k
    unfold HonestDir.init
    rw [known_cons g1, g2]
    rfl
  obtain ⟨a, b, hab⟩ := List.append_of_mem (h4 (P.home u))
  rw [hab] at h5 h6
  rw [List.map_append, List.map_cons] at h6
  obtain ⟨la, g1, g2⟩ := log_append C _ _ _ _ h6
  obtain ⟨⟨l1, e⟩, g3, g4⟩ := Option.bind_eq_some_iff.mp g2
  have hne : ∀ k, k ∈ a ∨ k ∈ b → k ≠ P.home u := by
    rw [List.nodup_append, List.nodup_cons] at h5
    rintro k (hk | hk) rfl
    · exact h5.2.2 _ hk _ (List.mem_cons_self ..) rfl
    · exact h5.2.1.1 hk
  have hoth : ∀ l : List (Fin n), (∀ k ∈ l, k ≠ P.home u) → ∀ op ∈ l.map (fun k => (H k).init C (logs k) (addr k)), op.about C ≠ some (P.id (P.home u)) := by
    intro l hl op hop
    obtain ⟨k, k1, rfl⟩ := List.mem_map.mp hop
    rw [habout]
    exact fun e => hl k k1 (hid _ _ (Option.some.inj e))
  have ha := (C43_isolation C _ _ (hoth a fun k hk => hne k (.inl hk)) _ _ g1).1
  have hb := (C43_isolation C _ _ (hoth b fun k hk => hne k (.inr hk)) _ _ g4).1
  have he : e = none := by
    have g3 : la.initHistory C (addr (P.home u)) (C.signPub (H (P.home u)).sk) (((logs (P.home u)).take ((H (P.home u)).known + 1)).map fun s => some s.toDir) =
        some (l1, e) := g3
    rw [known_cons f1] at g3
    obtain ⟨l', k1, _⟩ := (C43_no_reinit C la (addr (P.home u)) (C.signPub (H (P.home u)).sk) first.toDir
      (((logs (P.home u)).drop 1).take (H (P.home u)).known |>.map fun s => some s.toDir) (first_epoch_zero (hlt _) (h1 _) f1)).2 (by rw [← f2, ha]; rfl)
      (by intro x hx; obtain ⟨y, _, rfl⟩ := List.mem_map.mp hx; exact fun c => nomatch c)
    rw [k1] at g3
    cases g3
    rfl
  subst he
  exact ⟨⟨W.dirs (P.home u), l1, W.users u⟩, ⟨logs (P.home u), first, s, la, addr (P.home u), h1 _, f1, f2, h2 _, g3, s1, s2⟩, rfl, rfl, hb.symm⟩

/-- What user `u` and the auditor know of her directory at the beginning. -/
noncomputable def tableAt {n : Nat} (C : Crypto) (H : Fin n → HonestDir) (joined : Nat → Nat) (P : Places n) (u : Nat) : Table :=
  ⟨⟨exactAfter (fun m => (C.vrfProve (H (P.home u)).vk m).1) C.hash (H (P.home u)).pre, dirUpdates (H (P.home u)).pre - joined u, fun _ => none⟩,
    dirUpdates (H (P.home u)).pre, (H (P.home u)).known⟩

/-- C93. Take any number of honest directories, one auditor that follows all of them, any number of users, each at one of the directories, and besides
anything that anybody else has the auditor do (directories that lie included). Whatever the interleaving: what a user hears, and the auditor about her
directory, is what `Table.run`, the table of C85, says when she, her directory and the auditor are alone and all other calls at this directory are somebody's.
At the end the auditor reports exactly the first STRs of each directory, as many as it then knows, and each user holds an STR of her directory. -/
theorem C93_exact {n : Nat} (C : Crypto) (H : Fin n → HonestDir) (hsz : ∀ k, 2 ≤ (H k).size) (joined : Nat → Nat) (P : Places n)
    (hid : ∀ j k, P.id j = P.id k → j = k) (W : World n) (h : WorldStart C H joined P W) (evs : List (WorldOp n))
    (ho : ∀ o, .other o ∈ evs → ∀ k, o.about C ≠ some (P.id k)) (hpre : ∀ k, dirUpdates (H k).pre < 2 ^ 64)
    (hlt : ∀ u, dirUpdates ((H (P.home u)).pre ++ callsAt P u evs) + 1 < 2 ^ 64) (res : List (List (Option ErrorCode))) (W' : World n)
    (hr : W.run C P evs = some (res, W')) (u : Nat) :
    ∃ (B : Table) (log : List STR),
      Table.run (fun m => (C.vrfProve (H (P.home u)).vk m).1) C.hash (vrfOk C (H (P.home u)).vk) (H (P.home u)).size (tableAt C H joined P u)
        (evs.filterMap (WorldOp.forUser P u)) = some (heardIn P u evs res, B) ∧
      dirAfter C (H (P.home u)).t0 (H (P.home u)).sk (H (P.home u)).vk (H (P.home u)).size (H (P.home u)).r₁ (H (P.home u)).r₂
        ((H (P.home u)).pre ++ callsAt P u evs) = some (W'.dirs (P.home u), log) ∧
      ReportsExactly W'.log (P.id (P.home u)) ((log.take (B.seen + 1)).map STR.toDir) ∧
      (log[B.now - B.meet.lag]?).map STR.toDir = some (W'.users u).aud.verified := by
  obtain ⟨T, t1, t2⟩ := start_trio h hid hpre u
  obtain ⟨T', k1, k2⟩ := world_run C P hid evs ho W W' res hr u T t2
  have hx := C85_exact C _ _ _ _ (hsz (P.home u)) _ _ _ _ _ _ T t1 (evs.filterMap (WorldOp.forUser P u)) (hlt u)
  unfold tableAt
  generalize Table.run (fun m => (C.vrfProve (H (P.home u)).vk m).1) C.hash (vrfOk C (H (P.home u)).vk) (H (P.home u)).size
    ⟨⟨exactAfter (fun m => (C.vrfProve (H (P.home u)).vk m).1) C.hash (H (P.home u)).pre, dirUpdates (H (P.home u)).pre - joined u, fun _ => none⟩,
      dirUpdates (H (P.home u)).pre, (H (P.home u)).known⟩ (evs.filterMap (WorldOp.forUser P u)) = m at hx
  cases m with
  | none => rw [show T.run C _ _ = none from hx] at k1; cases k1
  | some x =>
    obtain ⟨r, B⟩ := x
    obtain ⟨T'', log, g1, g2, g3, g4, g5, g6⟩ := hx
    rw [k1] at g1
    cases g1
    refine ⟨B, log, rfl, by rw [← k2.dir]; exact g2, ?_, by rw [← k2.user]; exact g6⟩
    intro s t
    have he : W'.log.getObservedSTRs ⟨P.id (P.home u), s, t⟩ = T'.log.getObservedSTRs ⟨P.id (P.home u), s, t⟩ := by
      unfold AuditLog.getObservedSTRs
      dsimp only
      rw [k2.log]
    rw [he]
    exact g5 s t

/-- C93, crashes: nobody crashes, unless one of the tables says so (a directory is asked for STRs that it no longer keeps), or one of the calls of
others crashes the auditor (C88 says which do). -/
theorem C93_crash {n : Nat} (C : Crypto) (H : Fin n → HonestDir) (hsz : ∀ k, 2 ≤ (H k).size) (joined : Nat → Nat) (P : Places n)
    (hid : ∀ j k, P.id j = P.id k → j = k) (hh : ∀ k, ∃ u, P.home u = k) (W : World n) (h : WorldStart C H joined P W) (evs : List (WorldOp n))
    (ho : ∀ o, .other o ∈ evs → ∀ k, o.about C ≠ some (P.id k)) (hpre : ∀ k, dirUpdates (H k).pre < 2 ^ 64)
    (hlt : ∀ u, dirUpdates ((H (P.home u)).pre ++ callsAt P u evs) + 1 < 2 ^ 64) (hr : W.run C P evs = none) :
    (∃ u, Table.run (fun m => (C.vrfProve (H (P.home u)).vk m).1) C.hash (vrfOk C (H (P.home u)).vk) (H (P.home u)).size (tableAt C H joined P u)
        (evs.filterMap (WorldOp.forUser P u)) = none) ∨ ∃ o l, .other o ∈ evs ∧ CrashesAuditor C l o := by
  obtain ⟨T, hT⟩ := Classical.axiomOfChoice fun u => start_trio h hid hpre u
  rcases world_run_crash C P hid hh evs ho W hr T (fun u => (hT u).2) with ⟨u, k⟩ | ⟨o, l, k1, k2⟩
  · refine .inl ⟨u, ?_⟩
    have hx := C85_exact C _ _ _ _ (hsz (P.home u)) _ _ _ _ _ _ (T u) (hT u).1 (evs.filterMap (WorldOp.forUser P u)) (hlt u)
    unfold tableAt
    generalize Table.run (fun m => (C.vrfProve (H (P.home u)).vk m).1) C.hash (vrfOk C (H (P.home u)).vk) (H (P.home u)).size
      ⟨⟨exactAfter (fun m => (C.vrfProve (H (P.home u)).vk m).1) C.hash (H (P.home u)).pre, dirUpdates (H (P.home u)).pre - joined u, fun _ => none⟩,
        dirUpdates (H (P.home u)).pre, (H (P.home u)).known⟩ (evs.filterMap (WorldOp.forUser P u)) = m at hx
    cases m with
    | none => rfl
    | some x =>
      obtain ⟨T'', log, g1, _⟩ := hx
      rw [k] at g1
      cases g1
  · exact .inr ⟨o, l, k1, (C88_log_panics_iff C l o).mp k2⟩

/-- C93, no false alarm: at any time, a user who asks the auditor for the STRs from `s` up to the epoch she is in is told nil, or, if the auditor has not
got that far (or the range is empty), that the request is malformed; however many directories there are and whatever else the auditor was made to do. -/
theorem C93_no_false_alarm {n : Nat} (C : Crypto) (H : Fin n → HonestDir) (hsz : ∀ k, 2 ≤ (H k).size) (joined : Nat → Nat) (P : Places n)
    (hid : ∀ j k, P.id j = P.id k → j = k) (W : World n) (h : WorldStart C H joined P W) (evs : List (WorldOp n))
    (ho : ∀ o, .other o ∈ evs → ∀ k, o.about C ≠ some (P.id k)) (hpre : ∀ k, dirUpdates (H k).pre < 2 ^ 64)
    (hlt : ∀ u, dirUpdates ((H (P.home u)).pre ++ callsAt P u evs) + 1 < 2 ^ 64) (res : List (List (Option ErrorCode))) (W' : World n)
    (hr : W.run C P evs = some (res, W')) (u : Nat) (s : UInt64) :
    W'.step C P (.check u s (W'.users u).aud.verified.core.epoch) = some ([none], W') ∨
    W'.step C P (.check u s (W'.users u).aud.verified.core.epoch) = some ([some ErrMalformedMessage], W') := by
  obtain ⟨T, t1, t2⟩ := start_trio h hid hpre u
  obtain ⟨T', k1, k2⟩ := world_run C P hid evs ho W W' res hr u T t2
  have hx := C85_no_false_alarm C _ _ _ _ (hsz (P.home u)) _ _ _ _ _ _ T t1 (evs.filterMap (WorldOp.forUser P u)) (hlt u) _ T' k1 s
  have he : ∀ t, W'.log.getObservedSTRs ⟨P.id (P.home u), s, t⟩ = T'.log.getObservedSTRs ⟨P.id (P.home u), s, t⟩ := by
    intro t
    unfold AuditLog.getObservedSTRs
    dsimp only
    rw [k2.log]
  simp only [World.step]
  rw [he, ← k2.user]
  rcases hx with ⟨_, _, _, _, hx⟩ | hx
  · exact .inl (by rw [hx]; rfl)
  · exact .inr (by rw [hx]; rfl)

/-! ### Such a beginning exists, and a run -/

/-- the auditor can begin to follow any directories -/
theorem inits_run {n : Nat} (C : Crypto) (H : Fin n → HonestDir) (L : Fin n → List STR) (addr : Fin n → Bytes)
    (hL : ∀ k, ∃ first, (L k)[0]? = some first ∧ first.toDir.core.epoch = 0) (order : List (Fin n)) :
    ∀ l, ∃ l', logAfter C l (order.map fun k => (H k).init C (L k) (addr k)) = some l' := by
  induction order with
  | nil => intro l; exact ⟨l, rfl⟩
  | cons k order ih =>
    intro l
    obtain ⟨first, f1, f2⟩ := hL k
    have h1 : ∃ x, logStep C l ((H k).init C (L k) (addr k)) = some x := by
      unfold HonestDir.init
      rw [known_cons f1]
      obtain ⟨g1, g2⟩ := C43_no_reinit C l (addr k) (C.signPub (H k).sk) first.toDir (((L k).drop 1).take (H k).known |>.map fun s => some s.toDir) f2
      by_cases hl : l (dirId C first.toDir) = none
      · obtain ⟨l', k1, _⟩ := g2 hl (by intro x hx; obtain ⟨y, _, rfl⟩ := List.mem_map.mp hx; exact fun c => nomatch c)
        exact ⟨_, k1⟩
      · exact ⟨_, g1 hl⟩
    obtain ⟨x, hx⟩ := h1
    obtain ⟨l', hl'⟩ := ih x.1
    refine ⟨l', ?_⟩
    rw [List.map_cons]
    simp only [logAfter, hx, Option.bind_some]
    exact hl'

theorem start_world {n : Nat} (C : Crypto) (H : Fin n → HonestDir) (hpre : ∀ k, dirUpdates (H k).pre < 2 ^ 64) (D : Fin n → Directory) (L : Fin n → List STR)
    (hD : ∀ k, dirAfter C (H k).t0 (H k).sk (H k).vk (H k).size (H k).r₁ (H k).r₂ (H k).pre = some (D k, L k)) (hk : ∀ k, (H k).known < (L k).length)
    (home : Nat → Fin n) (joined : Nat → Nat) (hj : ∀ u, joined u < (L (home u)).length) :
    ∃ (P : Places n) (W : World n), P.home = home ∧ W.dirs = D ∧ WorldStart C H joined P W ∧
      ∀ k first, (L k)[0]? = some first → P.id k = dirId C first.toDir := by
  have hf : ∀ k, ∃ first, (L k)[0]? = some first := fun k => ⟨_, List.getElem?_eq_getElem (by have := hk k; omega)⟩
  obtain ⟨F, hF⟩ := Classical.axiomOfChoice hf
  obtain ⟨l, hl⟩ := inits_run C H L (fun _ => []) (fun k => ⟨F k, hF k, first_epoch_zero (hpre k) (hD k) (hF k)⟩) (List.finRange n) newAuditLog
  refine ⟨⟨fun k => dirId C (F k).toDir, home⟩, ⟨D, l, fun u =>
    { aud := newAudState (C.signPub (H (home u)).sk) ((L (home u))[joined u]'(hj u)).toDir, tbs := fun _ => none, useTBs := true, bindings := fun _ => none }⟩, rfl, rfl,
    ⟨L, List.finRange n, fun _ => [], hD, hk, fun k => ⟨F k, hF k, rfl⟩, List.mem_finRange, List.nodup_finRange n, hl, fun u => ⟨_, List.getElem?_eq_getElem (hj u), ?_⟩⟩, ?_⟩
  · simp [newClient]
  · intro k first h
    rw [hF k, Option.some.injEq] at h
    rw [← h]

/-- two directories with their own keys and three updates behind them; the auditor is given the first two STRs of each -/
def twoDirs : Fin 2 → HonestDir
  | 0 => ⟨5, [1], [2], 4, [3], [4], [.update, .update, .update], 1⟩
  | 1 => ⟨5, [7], [8], 4, [3], [4], [.update, .update, .update], 1⟩

/-- the auditor catches up with directory 0, but not with directory 1; both users check `0 .. 2`; somebody gives the auditor an empty list of STRs; then it
catches up with directory 1, and user 1 checks again, also the range up to 4, the newest epoch, where she is not; then she begins anew and checks once more -/
def twoEvents : List (WorldOp 2) :=
  [.audit 0 2 9, .dir 1 .update, .check 0 0 2, .check 1 0 2, .other (.init [] [] []), .audit 1 2 9, .check 1 0 2, .check 1 0 4, .join 1, .check 1 0 4]

section
open Classical

theorem two_zero (idx hash : Bytes → Bytes) (ok : Bytes → Bool) (M : Meeting) (hM : M.lag = 1) :
    ∃ B, Table.run idx hash ok 4 ⟨M, 3, 1⟩ [.audit 2 9, .check 0 2] = some ([none, none], B) := by
  have k3 : cacheKept 4 3 = 4 := by decide
  have t0 : (0 : UInt64).toNat = 0 := rfl
  have t2 : (2 : UInt64).toNat = 2 := rfl
  have t9 : (9 : UInt64).toNat = 9 := rfl
  simp [Table.run, Table.step, checkSays, auditSays, Table.user, k3, t0, t2, t9, hM]

theorem two_one (idx hash : Bytes → Bytes) (ok : Bytes → Bool) (M : Meeting) (hM : M.lag = 1) :
    ∃ B, Table.run idx hash ok 4 ⟨M, 3, 1⟩ [.ses (.dir .update), .check 0 2, .audit 2 9, .check 0 2, .check 0 4, .join, .check 0 4] = some ([some ErrMalformedMessage, none, none, some CheckBadSTR, none], B) := by
  have k3 : cacheKept 4 3 = 4 := by decide
  have k4 : cacheKept 4 4 = 3 := by decide
  have g : ∀ B : Table, ¬ B.asksGone 4 .update := by rintro B ⟨r, e, _⟩; cases e
  have t0 : (0 : UInt64).toNat = 0 := rfl
  have t2 : (2 : UInt64).toNat = 2 := rfl
  have t4 : (4 : UInt64).toNat = 4 := rfl
  have t9 : (9 : UInt64).toNat = 9 := rfl
  simp [Table.run, Table.step, Table.dirStep, checkSays, auditSays, Table.user, g, k4, t0, t2, t4, t9, hM]

theorem two_more (idx hash : Bytes → Bytes) (ok : Bytes → Bool) (M : Meeting) :
    ∃ x, Table.run idx hash ok 4 ⟨M, 3, 1⟩ [.ses (.dir .update), .audit 2 9] = some x := by
  have k4 : cacheKept 4 4 = 3 := by decide
  have g : ∀ B : Table, ¬ B.asksGone 4 .update := by rintro B ⟨r, e, _⟩; cases e
  have t2 : (2 : UInt64).toNat = 2 := rfl
  have t9 : (9 : UInt64).toNat = 9 := rfl
  simp [Table.run, Table.step, Table.dirStep, auditSays, g, k4, t2, t9]

end

theorem threeCases (u : Nat) : u = 0 ∨ u = 1 ∨ ∃ v, u = v + 2 := by
  by_cases h : u = 0
  · exact .inl h
  · by_cases h1 : u = 1
    · exact .inr (.inl h1)
    · exact .inr (.inr ⟨u - 2, by omega⟩)

/-- User 0 hears that all is well; user 1 first that the auditor has not got that far, then nil, then the false alarm of C85, and nil after she began anew. -/
example : ∃ (P : Places 2) (W : World 2), WorldStart Crypto.toy twoDirs (fun _ => 2) P W ∧ ∃ res W', W.run Crypto.toy P twoEvents = some (res, W') ∧
    heardIn P 0 twoEvents res = [none, none] ∧ heardIn P 1 twoEvents res = [some ErrMalformedMessage, none, none, some CheckBadSTR, none] := by
  have hex : ∀ k, ∃ x : Directory × List STR, dirAfter Crypto.toy (twoDirs k).t0 (twoDirs k).sk (twoDirs k).vk (twoDirs k).size (twoDirs k).r₁ (twoDirs k).r₂ (twoDirs k).pre = some x := by
    intro k
    obtain ⟨d, log, h⟩ := C31_history_runs Crypto.toy (twoDirs k).t0 (twoDirs k).sk (twoDirs k).vk (twoDirs k).size (twoDirs k).r₁ (twoDirs k).r₂ (twoDirs k).pre
      (by match k with | 0 => decide | 1 => decide) (by intro req; match k with | 0 => simp [twoDirs] | 1 => simp [twoDirs])
    exact ⟨_, h⟩
  obtain ⟨X, hX⟩ := Classical.axiomOfChoice hex
  have hpre : ∀ k, dirUpdates (twoDirs k).pre = 3 := by intro k; match k with | 0 => rfl | 1 => rfl
  have hlen : ∀ k, (X k).2.length = 4 := by
    intro k
    obtain ⟨_, hl⟩ := dirAfter_exact Crypto.toy _ _ _ _ _ _ _ (by rw [hpre]; decide) (X k).1 (X k).2 (hX k)
    rw [hl, hpre]
  obtain ⟨P, W, p1, p2, hw, p3⟩ := start_world Crypto.toy twoDirs (by intro k; rw [hpre]; decide) (fun k => (X k).1) (fun k => (X k).2) hX
    (by intro k; rw [hlen]; match k with | 0 => decide | 1 => decide) (fun u => if u = 0 then 0 else 1) (fun _ => 2) (by intro u; rw [hlen]; decide)
  have hne : P.id 0 ≠ P.id 1 := by
    have k01 : (dirAfter Crypto.toy 5 [1] [2] 4 [3] [4] [.update, .update, .update]).map (fun x => (x.2[0]?).map fun s => (dirId Crypto.toy s.toDir).val) ≠
        (dirAfter Crypto.toy 5 [7] [8] 4 [3] [4] [.update, .update, .update]).map (fun x => (x.2[0]?).map fun s => (dirId Crypto.toy s.toDir).val) := by
      rw [dirAfterE_eq, dirAfterE_eq]; decide +kernel
    have x0 : dirAfter Crypto.toy 5 [1] [2] 4 [3] [4] [.update, .update, .update] = some (X 0) := hX 0
    have x1 : dirAfter Crypto.toy 5 [7] [8] 4 [3] [4] [.update, .update, .update] = some (X 1) := hX 1
    have l0 : (X 0).2[0]? = some ((X 0).2[0]'(by rw [hlen]; decide)) := List.getElem?_eq_getElem _
    have l1 : (X 1).2[0]? = some ((X 1).2[0]'(by rw [hlen]; decide)) := List.getElem?_eq_getElem _
    rw [x0, x1, Option.map_some, Option.map_some, l0, l1, Option.map_some, Option.map_some, ← p3 0 _ l0, ← p3 1 _ l1] at k01
    exact fun e => k01 (by rw [e])
  have hid : ∀ j k, P.id j = P.id k → j = k := by
    intro j k e
    match j, k with
    | 0, 0 => rfl
    | 1, 1 => rfl
    | 0, 1 => exact absurd e hne
    | 1, 0 => exact absurd e.symm hne
  have h0 : P.home 0 = 0 := by rw [p1]; rfl
  have h1 : ∀ u, P.home (u + 1) = 1 := by intro u; rw [p1]; rfl
  have hsz : ∀ k, (twoDirs k).size = 4 := by intro k; match k with | 0 => rfl | 1 => rfl
  have hkn : ∀ k, (twoDirs k).known = 1 := by intro k; match k with | 0 => rfl | 1 => rfl
  have e0 : twoEvents.filterMap (WorldOp.forUser P 0) = [.audit 2 9, .check 0 2] := by simp [twoEvents, List.filterMap_cons, WorldOp.forUser, h0]
  have e1 : twoEvents.filterMap (WorldOp.forUser P 1) = [.ses (.dir .update), .check 0 2, .audit 2 9, .check 0 2, .check 0 4, .join, .check 0 4] := by simp [twoEvents, List.filterMap_cons, WorldOp.forUser, h1 0]
  have e2 : ∀ u, twoEvents.filterMap (WorldOp.forUser P (u + 2)) = [.ses (.dir .update), .audit 2 9] := by
    intro u
    have h2 : P.home (u + 2) = 1 := h1 (u + 1)
    simp [twoEvents, List.filterMap_cons, WorldOp.forUser, h2]
  have ho : ∀ o, .other o ∈ twoEvents → ∀ k, o.about Crypto.toy ≠ some (P.id k) := by
    intro o h k
    simp only [twoEvents, List.mem_cons, WorldOp.other.injEq, reduceCtorEq, false_or, List.not_mem_nil, or_false] at h
    subst h
    exact fun c => nomatch c
  have hpre' : ∀ k, dirUpdates (twoDirs k).pre < 2 ^ 64 := by intro k; rw [hpre]; decide
  have hlt : ∀ u, dirUpdates ((twoDirs (P.home u)).pre ++ callsAt P u twoEvents) + 1 < 2 ^ 64 := by
    intro u
    rw [dirUpdates_append, hpre]
    unfold callsAt
    match u with
    | 0 => rw [e0]; exact Nat.lt_of_le_of_lt (show _ ≤ 10 by decide) (by decide)
    | 1 => rw [e1]; exact Nat.lt_of_le_of_lt (show _ ≤ 10 by decide) (by decide)
    | u + 2 => rw [e2]; exact Nat.lt_of_le_of_lt (show _ ≤ 10 by decide) (by decide)
  have hlag : ∀ u, (tableAt Crypto.toy twoDirs (fun _ => 2) P u).meet.lag = 1 := by intro u; unfold tableAt; dsimp only; rw [hpre]
  have hT : ∀ u, tableAt Crypto.toy twoDirs (fun _ => 2) P u = ⟨(tableAt Crypto.toy twoDirs (fun _ => 2) P u).meet, 3, 1⟩ := by
    intro u
    unfold tableAt
    dsimp only
    rw [hpre, hkn]
  cases hr : W.run Crypto.toy P twoEvents with
  | none =>
    exfalso
    rcases C93_crash Crypto.toy twoDirs (by intro k; rw [hsz]; decide) (fun _ => 2) P hid
      (by intro k; match k with | 0 => exact ⟨0, h0⟩ | 1 => exact ⟨1, h1 0⟩) W hw twoEvents ho hpre' hlt hr with ⟨u, k⟩ | ⟨o, l, k1, k2⟩
    · rw [hsz, hT] at k
      obtain rfl | rfl | ⟨v, rfl⟩ := threeCases u
      · rw [e0] at k; obtain ⟨B, hB⟩ := two_zero _ _ _ _ (hlag 0); rw [hB] at k; cases k
      · rw [e1] at k; obtain ⟨B, hB⟩ := two_one _ _ _ _ (hlag 1); rw [hB] at k; cases k
      · rw [e2] at k; obtain ⟨B, hB⟩ := two_more _ _ _ _; rw [hB] at k; cases k
    · simp only [twoEvents, List.mem_cons, WorldOp.other.injEq, reduceCtorEq, false_or, List.not_mem_nil, or_false] at k1
      subst k1
      rcases k2 with ⟨_, k2⟩ | ⟨_, _, k2, _⟩ <;> cases k2
  | some x =>
    obtain ⟨res, W'⟩ := x
    have hx := C93_exact Crypto.toy twoDirs (by intro k; rw [hsz]; decide) (fun _ => 2) P hid W hw twoEvents ho hpre' hlt res W' hr
    refine ⟨P, W, hw, res, W', hr, ?_, ?_⟩
    · obtain ⟨B, _, hB, _⟩ := hx 0
      rw [hsz, hT, e0] at hB
      obtain ⟨B', hB'⟩ := two_zero (fun m => (Crypto.toy.vrfProve (twoDirs (P.home 0)).vk m).1) Crypto.toy.hash (vrfOk Crypto.toy (twoDirs (P.home 0)).vk) _ (hlag 0)
      exact (congrArg Prod.fst (Option.some.inj (hB'.symm.trans hB))).symm
    · obtain ⟨B, _, hB, _⟩ := hx 1
      rw [hsz, hT, e1] at hB
      obtain ⟨B', hB'⟩ := two_one (fun m => (Crypto.toy.vrfProve (twoDirs (P.home 1)).vk m).1) Crypto.toy.hash (vrfOk Crypto.toy (twoDirs (P.home 1)).vk) _ (hlag 1)
      exact (congrArg Prod.fst (Option.some.inj (hB'.symm.trans hB))).symm

end Coniks.Props
