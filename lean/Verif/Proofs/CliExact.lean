import Verif.Spec.CliExact
import Verif.Proofs.Cli
import Verif.Proofs.SessionExact
/-
Proofs for C64, exact form.
-/
namespace Coniks
open Spec Json

/-- the verdicts with the status codes -/
noncomputable def exactTalks (idx hash : Bytes → Bytes) (vrfOk : Bytes → Bool) : Meeting → List SesOp →
    Option (List (Option ErrorCode × ErrorCode))
  | _, [] => some []
  | M, .dir op :: ops =>
    exactTalks idx hash vrfOk ⟨M.dir.step idx hash op, if op = .update then M.lag + 1 else M.lag, M.held⟩ ops
  | M, .lookup n key :: ops =>
    (M.hear hash vrfOk M.dir true n key (M.dir.lookupAnswer idx n)).bind fun x =>
      (exactTalks idx hash vrfOk x.2 ops).map ((x.1, (M.dir.lookupAnswer idx n).1) :: ·)
  | M, .register rnd n k :: ops =>
    (M.hear hash vrfOk (M.dir.step idx hash (.register rnd ⟨n, k⟩)) false n (some k) (M.dir.registerAnswer idx rnd n k)).bind
      fun x => (exactTalks idx hash vrfOk x.2 ops).map ((x.1, (M.dir.registerAnswer idx rnd n k).1) :: ·)

theorem exactAnswer_code {C : Crypto} {sk vk n : Bytes} {str : DirSTR} {r : Response} {a : ErrorCode × Option (Finding × Option Bytes)}
    (h : ExactAnswer C sk vk n str r a) : r.error = a.1 := by
  obtain ⟨code, o⟩ := a
  cases o with
  | none => have h' : r = ⟨code, .none⟩ := h; rw [h']
  | some x => obtain ⟨f, p⟩ := x; obtain ⟨ap, h, _⟩ := h; rw [h]

theorem exact_talk_run (C : Crypto) (sk vk : Bytes) (ops : List SesOp) : ∀ d log cc M, XSes C sk vk d log cc M →
    log.length + dirUpdates (ops.map SesOp.dirOp) ≤ 2 ^ 64 → ∀ d' log', d.runLog C log (ops.map SesOp.dirOp) = some (d', log') →
    (runTalk C d cc ops).map (fun x => (x.1, x.2.2)) =
      (exactTalks (fun n => (C.vrfProve vk n).1) C.hash (vrfOk C vk) M ops).map (fun v => (d', v)) := by
  induction ops with
  | nil =>
    intro d log cc M i _ d' log' h
    simp only [List.map_nil, Directory.runLog, Option.some.injEq, Prod.mk.injEq] at h
    simp [runTalk, exactTalks, h.1]
  | cons op ops ih =>
    intro d log cc M i hlen d' log' h
    rw [List.map_cons] at h hlen
    rw [dirUpdates_cons] at hlen
    obtain ⟨d1, r, h1, h2⟩ := runLog_cons_some h
    have hil : (log ++ op.dirOp.issued d1).length = log.length + dirUpdates [op.dirOp] := by simp [issued_length]
    have i1 := x_dir_step i op.dirOp (by omega) d1 r h1
    have tail : ∀ {d1 : Directory} {lg : List STR} {hear : Option (Option ErrorCode × Meeting)} {hr : Go (Client × Option ErrorCode)}
        {c : ErrorCode},
        (match hear with
          | none => hr = none
          | some x => ∃ cc', hr = some (cc', x.1) ∧ XSes C sk vk d1 lg cc' x.2) →
        lg.length + dirUpdates (ops.map SesOp.dirOp) ≤ 2 ^ 64 →
        d1.runLog C lg (ops.map SesOp.dirOp) = some (d', log') →
        (hr.bind fun y => (runTalk C d1 y.1 ops).map fun z => (z.1, z.2.1, (y.2, c) :: z.2.2)).map (fun x => (x.1, x.2.2)) =
        (hear.bind fun x => (exactTalks (fun n => (C.vrfProve vk n).1) C.hash (vrfOk C vk) x.2 ops).map ((x.1, c) :: ·)).map
          (fun v => (d', v)) := by
      intro d1 lg hear hr c hh hlen1 hrun1
      cases hear with
      | none => rw [show hr = none from hh]; rfl
      | some x =>
        obtain ⟨cc', g1, g2⟩ := hh
        have := ih d1 lg cc' x.2 g2 hlen1 d' log' hrun1
        rw [g1, Option.bind_some, Option.bind_some]
        cases hv : exactTalks (fun n => (C.vrfProve vk n).1) C.hash (vrfOk C vk) x.2 ops with
        | none =>
          rw [hv] at this
          simp only [Option.map_none, Option.map_eq_none_iff] at this
          simp [this]
        | some v =>
          rw [hv] at this
          obtain ⟨⟨a, b, c⟩, e1, e2⟩ := Option.map_eq_some_iff.mp this
          simp only [Prod.mk.injEq] at e2
          simp [e1, e2.1, e2.2]
    cases op with
    | dir op =>
      have := ih d1 _ cc _ i1 (by rw [hil]; omega) d' log' h2
      simp only [runTalk, exactTalks]
      rw [show d.step C op = some (d1, r) from h1, Option.bind_some]
      exact this
    | lookup n key =>
      obtain ⟨resp, g1, g2⟩ := keyLookup_exact i.dir n
      have hd1 : d1 = d := by
        simp only [SesOp.dirOp, Directory.step, g1, Option.map_some, Option.some.injEq, Prod.mk.injEq] at h1
        exact h1.1.symm
      subst hd1
      have hiss : SesOp.dirOp (.lookup n key) = .keyLookup ⟨n⟩ := rfl
      rw [hiss] at h2
      simp only [DirOp.issued, List.append_nil] at h2
      have hx := x_client i i.dir rfl i.pol true n key _ resp g2 (lookup_answerShape _ _ n)
      simp only [runTalk, exactTalks, g1, Option.bind_some, exactAnswer_code g2]
      exact tail hx (by omega) h2
    | register rnd n k =>
      obtain ⟨d2, resp, g1, ginv, g2⟩ := register_exact i.dir rnd n k
      have hd1 : d1 = d2 := by
        simp only [SesOp.dirOp, Directory.step, g1, Option.map_some, Option.some.injEq, Prod.mk.injEq] at h1
        exact h1.1.symm
      subst hd1
      have hiss : SesOp.dirOp (.register rnd n k) = .register rnd ⟨n, k⟩ := rfl
      rw [hiss] at h2 i1
      simp only [DirOp.issued, List.append_nil, reduceCtorEq, if_false] at h2 i1
      have hx := x_client i ginv (register_keeps g1).2.2 i1.pol false n (some k) _ resp g2 (register_answerShape _ _ rnd n k)
      simp only [runTalk, exactTalks, g1, Option.bind_some, exactAnswer_code g2]
      exact tail hx (by omega) h2

/-- a session is a run of the directory -/
theorem runTalk_runLog {C : Crypto} : ∀ (ops : List SesOp) (d : Directory) (cc : Client) (log : List STR) (d' : Directory) (cc' : Client)
    (rs : List (Option ErrorCode × ErrorCode)), runTalk C d cc ops = some (d', cc', rs) →
    ∃ log', d.runLog C log (ops.map SesOp.dirOp) = some (d', log')
  | [], d, cc, log, d', cc', rs, h => by
    simp only [runTalk, Option.some.injEq, Prod.mk.injEq] at h
    exact ⟨log, by rw [← h.1]; rfl⟩
  | .dir op :: ops, d, cc, log, d', cc', rs, h => by
    simp only [runTalk] at h
    obtain ⟨⟨d1, r⟩, hs, h⟩ := Option.bind_eq_some_iff.mp h
    obtain ⟨log', hl⟩ := runTalk_runLog ops d1 cc (log ++ op.issued d1) d' cc' rs h
    refine ⟨log', ?_⟩
    simp only [List.map_cons, SesOp.dirOp, Directory.runLog, hs]
    exact hl
  | .lookup n key :: ops, d, cc, log, d', cc', rs, h => by
    simp only [runTalk] at h
    obtain ⟨resp, hs, h⟩ := Option.bind_eq_some_iff.mp h
    obtain ⟨y, _, h⟩ := Option.bind_eq_some_iff.mp h
    obtain ⟨⟨z1, z2, z3⟩, hz, h⟩ := Option.map_eq_some_iff.mp h
    simp only [Prod.mk.injEq] at h
    obtain ⟨rfl, rfl, rfl⟩ := h
    obtain ⟨log', hl⟩ := runTalk_runLog ops d y.1 log z1 z2 z3 hz
    refine ⟨log', ?_⟩
    simp only [List.map_cons, SesOp.dirOp, Directory.runLog, Directory.step, hs, Option.map_some, DirOp.issued, List.append_nil]
    exact hl
  | .register rnd n k :: ops, d, cc, log, d', cc', rs, h => by
    simp only [runTalk] at h
    obtain ⟨⟨d1, resp⟩, hs, h⟩ := Option.bind_eq_some_iff.mp h
    obtain ⟨y, _, h⟩ := Option.bind_eq_some_iff.mp h
    obtain ⟨⟨z1, z2, z3⟩, hz, h⟩ := Option.map_eq_some_iff.mp h
    simp only [Prod.mk.injEq] at h
    obtain ⟨rfl, rfl, rfl⟩ := h
    obtain ⟨log', hl⟩ := runTalk_runLog ops d1 y.1 log z1 z2 z3 hz
    refine ⟨log', ?_⟩
    simp only [List.map_cons, SesOp.dirOp, Directory.runLog, Directory.step, hs, Option.map_some, DirOp.issued, List.append_nil]
    exact hl

/-! ### texts -/

theorem reason_eq {e : ErrorCode} (h : e = ErrMalformedMessage ∨ e = ErrDirectory ∨ e = CheckBadVRFProof ∨ e = CheckBadCommitment ∨
    e = CheckBrokenPromise) : reasonText e = ascii "Error: " ++ errorText e ∧ e ≠ CheckBadSTR ∧ e ≠ CheckBindingsDiffer := by
  rcases h with rfl | rfl | rfl | rfl | rfl <;> exact ⟨by decide +kernel, by decide, by decide⟩

theorem reason_badSTR : reasonText CheckBadSTR = badSTRText := by decide +kernel

theorem registerText_reason {e : ErrorCode} (h : e = ErrMalformedMessage ∨ e = ErrDirectory ∨ e = CheckBadVRFProof ∨ e = CheckBadCommitment ∨
    e = CheckBrokenPromise) (code : ErrorCode) (n k : Bytes) : registerText (some e) code none n k = registerWords (some e) code n := by
  obtain ⟨h1, h2, h3⟩ := reason_eq h
  simp only [registerText, registerWords, if_neg h2, if_neg h3, h1]

theorem lookupText_reason {e : ErrorCode} (h : e = ErrMalformedMessage ∨ e = ErrDirectory ∨ e = CheckBadVRFProof ∨ e = CheckBadCommitment ∨
    e = CheckBrokenPromise) (code : ErrorCode) : lookupText (some e) code none = lookupWords (some e) code := by
  obtain ⟨h1, h2, h3⟩ := reason_eq h
  simp only [lookupText, lookupWords, if_neg h2, h1]

/-- "Are you trying to update your binding?" is not said after a success -/
theorem register_new {idx : Bytes → Bytes} {E : ExactDir} {rnd : Option Bytes} {n k : Bytes} {f : Finding} {prom : Option Bytes}
    (h : E.registerAnswer idx rnd n k = (ReqSuccess, some (f, prom))) : f = .absent ∧ prom = some k := by
  unfold ExactDir.registerAnswer at h
  split at h
  · exact nomatch h
  · split at h
    · split at h
      · cases h; exact ⟨rfl, rfl⟩
      · exact nomatch h
    · simp [ReqSuccess, ReqNameExisted] at h
    · simp [ReqSuccess, ReqNameExisted] at h

theorem register_words {idx hash : Bytes → Bytes} {vo : Bytes → Bool} {M : Meeting} {E' : ExactDir} {rnd : Option Bytes} {n k : Bytes}
    {x : Option ErrorCode × Meeting} (h : M.hear hash vo E' false n (some k) (M.dir.registerAnswer idx rnd n k) = some x) :
    registerText x.1 (M.dir.registerAnswer idx rnd n k).1 none n k = registerWords x.1 (M.dir.registerAnswer idx rnd n k).1 n := by
  have hshape := register_answerShape idx M.dir rnd n k
  have hnew := @register_new idx M.dir rnd n k
  generalize M.dir.registerAnswer idx rnd n k = a at h hshape hnew
  obtain ⟨code, o⟩ := a
  cases o with
  | none =>
    simp only [Meeting.hear, Option.some.injEq] at h
    subst h
    have hs : code = ErrMalformedMessage ∨ code = ErrDirectory := hshape
    exact registerText_reason (by rcases hs with h | h <;> simp [h]) code n k
  | some fp =>
    obtain ⟨f, prom⟩ := fp
    simp only [Meeting.hear] at h
    split at h
    · cases h
      simp only [registerText, registerWords, if_true]
      rw [if_neg (by decide), reason_badSTR]
    · obtain ⟨⟨v, hd⟩, hsay, rfl⟩ := Option.map_eq_some_iff.mp h
      dsimp only
      have ok : ∀ c, c = ReqSuccess ∨ c = ReqNameExisted → registerText none c none n k = registerWords none c n := by
        rintro c (rfl | rfl)
        · simp [registerText, registerWords]
        · simp [registerText, registerWords, ReqNameExisted, ReqSuccess]
      have differ : registerText (some CheckBindingsDiffer) ReqNameExisted none n k = registerWords (some CheckBindingsDiffer) ReqNameExisted n := by
        simp [registerText, registerWords, CheckBindingsDiffer, CheckBadSTR]
      have hcode : code = ReqSuccess ∨ code = ReqNameExisted := by
        rcases hshape with ⟨_, _, h⟩ | ⟨_, _, h, _⟩ | ⟨_, _, h | ⟨_, h⟩⟩
        · exact .inr h
        · exact nomatch h
        · exact .inl h
        · exact .inr h
      have hdiff : ¬ (f = .absent ∧ prom = some k) → code = ReqNameExisted := by
        intro hne
        rcases hcode with rfl | h
        · exact absurd (hnew rfl) hne
        · exact h
      unfold clientSays at hsay
      split at hsay
      · cases hsay; exact registerText_reason (by simp) code n k
      · cases f with
        | ghost =>
          have hE := hdiff (by simp)
          dsimp only at hsay
          split at hsay
          · exact nomatch hsay
          · cases hsay; rw [hE]; exact differ
        | entry e =>
          have hE := hdiff (by simp)
          simp only [Bool.false_eq_true, if_false] at hsay
          split at hsay
          · cases hsay; rw [hE]; exact differ
          · split at hsay
            · cases hsay; exact registerText_reason (by simp) code n k
            · cases hsay; exact ok code hcode
        | absent =>
          dsimp only at hsay
          cases prom with
          | none => cases hsay; exact ok code hcode
          | some v =>
            dsimp only at hsay
            split at hsay
            · rename_i hv
              have hE := hdiff (by simpa [eq_comm] using hv)
              cases hsay; rw [hE]; exact differ
            · cases hsay; exact ok code hcode

theorem lookup_words {idx hash : Bytes → Bytes} {vo : Bytes → Bool} {M : Meeting} {E' : ExactDir} {n : Bytes}
    {x : Option ErrorCode × Meeting} (h : M.hear hash vo E' true n none (M.dir.lookupAnswer idx n) = some x) :
    lookupText x.1 (M.dir.lookupAnswer idx n).1 none = lookupWords x.1 (M.dir.lookupAnswer idx n).1 := by
  have hshape := lookup_answerShape idx M.dir n
  generalize M.dir.lookupAnswer idx n = a at h hshape
  obtain ⟨code, o⟩ := a
  cases o with
  | none =>
    simp only [Meeting.hear, Option.some.injEq] at h
    subst h
    have hs : code = ErrMalformedMessage ∨ code = ErrDirectory := hshape
    exact lookupText_reason (by rcases hs with h | h <;> simp [h]) code
  | some fp =>
    obtain ⟨f, prom⟩ := fp
    simp only [Meeting.hear] at h
    split at h
    · cases h
      simp only [lookupText, lookupWords, if_true, reason_badSTR]
    · obtain ⟨⟨v, hd⟩, hsay, rfl⟩ := Option.map_eq_some_iff.mp h
      dsimp only
      have hk : ascii "Found! Key bound to name is: [" ++ (none : Option Bytes).getD [] ++ ascii "]" =
        ascii "Found! Key bound to name is: []" := by decide +kernel
      have ok : ∀ c, c = ReqSuccess ∨ c = ReqNameNotFound → lookupText none c none = lookupWords none c := by
        rintro c (rfl | rfl)
        · simp only [lookupText, lookupWords, if_true, hk]
        · simp [lookupText, lookupWords, ReqNameNotFound, ReqSuccess]
      have hcode : code = ReqSuccess ∨ code = ReqNameNotFound := by
        rcases hshape with ⟨_, _, h⟩ | ⟨_, _, _, h⟩ | ⟨_, _, h | ⟨h, _⟩⟩
        · exact .inl h
        · exact .inr h
        · exact .inl h
        · exact nomatch h
      unfold clientSays at hsay
      split at hsay
      · cases hsay; exact lookupText_reason (by simp) code
      · cases f with
        | ghost => simp at hsay
        | entry e =>
          simp only [if_true, ne_eq, not_true, false_and, if_false] at hsay
          split at hsay
          · cases hsay; exact lookupText_reason (by simp) code
          · split at hsay
            · cases hsay; exact lookupText_reason (by simp) code
            · cases hsay; exact ok code hcode
        | absent =>
          cases prom with
          | none => cases hsay; exact ok code hcode
          | some v =>
            simp only [ne_eq, not_true, false_and, if_false] at hsay
            cases hsay; exact ok code hcode

theorem render_exact {idx hash : Bytes → Bytes} {vo : Bytes → Bool} : ∀ (evs : List ReplEvent) (M : Meeting) (ts : Bool),
    (exactTalks idx hash vo M (sesOps evs)).map (render ts evs) = exactLines idx hash vo M ts evs
  | [], _, _ => rfl
  | .dir op :: evs, M, ts => by
    simp only [sesOps, exactTalks, exactLines]
    exact render_exact evs _ ts
  | .line rnd l :: evs, M, ts => by
    cases hc : command (fields l) with
    | register n k =>
      simp only [sesOps, hc, exactTalks, exactLines]
      cases hh : M.hear hash vo (M.dir.step idx hash (.register rnd ⟨n, k⟩)) false n (some k) (M.dir.registerAnswer idx rnd n k) with
      | none => rfl
      | some x =>
        simp only [Option.bind_some]
        rw [← render_exact evs x.2 ts, ← register_words hh, Option.map_map, Option.map_map]
        congr 1
        funext rs
        simp only [Function.comp, render, hc]
    | lookup n =>
      simp only [sesOps, hc, exactTalks, exactLines]
      cases hh : M.hear hash vo M.dir true n none (M.dir.lookupAnswer idx n) with
      | none => rfl
      | some x =>
        simp only [Option.bind_some]
        rw [← render_exact evs x.2 ts, ← lookup_words hh, Option.map_map, Option.map_map]
        congr 1
        funext rs
        simp only [Function.comp, render, hc]
    | exit => simp only [sesOps, hc, exactTalks, exactLines, Option.map_some, render]
    | _ =>
      simp only [sesOps, hc, exactLines]
      rw [← render_exact evs M _, Option.map_map]
      congr 1
      funext rs
      simp only [Function.comp, render, hc]

end Coniks
