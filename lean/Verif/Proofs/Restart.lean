import Verif.Proofs.Session
import Verif.Proofs.Mitm
import Verif.Props.Auditor
/-
Two lives of a directory under the same keys.
-/
namespace Coniks
open Spec Props

theorem checkBad_of {C : Crypto} {a : AudState} {s : DirSTR} (hne : s ≠ a.verified) (hl : ¬ Linked C a.verified s)
    (sg : Signed C a.signKey s) : a.checkSTRAgainstVerified C (some s) = some (some CheckBadSTR) := by
  obtain ⟨m, hm, hv⟩ := sg
  unfold AudState.checkSTRAgainstVerified
  by_cases h1 : s.core.epoch = a.verified.core.epoch
  · simp only [h1, if_true, AudState.compareWithVerified]
    rw [if_neg (fun e => hne e.symm)]
  · by_cases h2 : s.core.epoch = a.verified.core.epoch + 1
    · simp only [h1, if_false]
      rw [if_pos h2]
      simp only [AudState.verifySTRConsistency, hm, AudState.verify, hv, if_true]
      rw [if_neg]
      intro hh
      simp only [DirSTR.verifyHashChain, STRCore.verifyHashChain, Bool.and_eq_true, beq_iff_eq] at hh
      exact hl ⟨h2, hh.1.1, by rw [← hh.2]; simp [Crypto.digest]⟩
    · simp only [h1, h2, if_false]

theorem bad_refused {C : Crypto} {cc : Client} {ty : Int} {code : ErrorCode} {ap : AuthPath} {str : DirSTR} {tb : Option TB} {n : Bytes}
    {key : Option Bytes} (hty : ty = RegistrationType ∨ ty = KeyLookupType) (hcode : errorsSet code = false)
    (bad : cc.aud.checkSTRAgainstVerified C (some str) = some (some CheckBadSTR)) :
    cc.handleResponse C ty ⟨code, .proof ⟨[some ap], [some str], tb⟩⟩ n key = some (cc, some CheckBadSTR) := by
  unfold Client.handleResponse
  have hv : Response.validate ⟨code, .proof ⟨[some ap], [some str], tb⟩⟩ = some none := by simp [Response.validate, hcode]
  rw [hv]
  simp only
  rw [if_pos (by rcases hty with h | h; exact .inl h; exact .inr (.inl h))]
  have hu : cc.updateSTR C ty ⟨[some ap], [some str], tb⟩ = some (cc, some CheckBadSTR) := by
    unfold Client.updateSTR
    rw [if_pos hty]
    simp only [audit_one, bad]
  simp only [hu]

theorem bad_answer {C : Crypto} {cc : Client} {sk vk n : Bytes} {key : Option Bytes} {ty : Int} {str : DirSTR} {resp : Response}
    {a : ErrorCode × Option Bytes × Option Bytes} (ha : Answers C sk vk n str resp a) (hty : ty = RegistrationType ∨ ty = KeyLookupType)
    (hcode : answered a = true → errorsSet a.1 = false)
    (bad : cc.aud.checkSTRAgainstVerified C (some str) = some (some CheckBadSTR)) :
    cc.handleResponse C ty resp n key = some (cc, some (if answered a then CheckBadSTR else a.1)) := by
  unfold Answers at ha
  by_cases herr : a.1 = ErrMalformedMessage ∨ a.1 = ErrDirectory
  · rw [if_pos herr] at ha
    rw [ha, honest_error herr]
    have : answered a = false := by unfold answered; rcases herr with h | h <;> rw [h] <;> decide
    simp [verdict, herr, this]
  · rw [if_neg herr] at ha
    obtain ⟨ap, hr, _⟩ := ha
    have hans : answered a = true := by
      unfold answered
      simp only [not_or] at herr
      simp [herr]
    rw [hr, bad_refused hty (hcode hans) bad, hans, if_pos rfl]

theorem runLog_ext {C : Crypto} : ∀ (ops : List DirOp) (d : Directory) (log : List STR) d' log',
    d.runLog C log ops = some (d', log') → ∀ s ∈ log, s ∈ log' := by
  intro ops
  induction ops with
  | nil =>
    intro d log d' log' h s hs
    simp only [Directory.runLog, Option.some.injEq, Prod.mk.injEq] at h
    rw [← h.2]; exact hs
  | cons op ops ih =>
    intro d log d' log' h s hs
    obtain ⟨d1, r, _, h2⟩ := runLog_cons_some h
    exact ih d1 _ d' log' h2 s (List.mem_append_left _ hs)

/-- a client that refuses all the STRs of a directory is refused service for ever -/
theorem session_refused (C : Crypto) (sk vk : Bytes) (ns : List Bytes) (inj : IndexInj (fun k => (C.vrfProve vk k).1) ns)
    (spread : IndexSpread (fun k => (C.vrfProve vk k).1) ns) (cc : Client) (ops : List SesOp) : ∀ d log A,
    DirInv C sk vk ns d log A → (∀ n ∈ sesNames ops, n ∈ ns) →
    log.length + dirUpdates (ops.map SesOp.dirOp) ≤ 2 ^ 64 → ∀ d' log', d.runLog C log (ops.map SesOp.dirOp) = some (d', log') →
    (∀ s ∈ log', cc.aud.checkSTRAgainstVerified C (some s.toDir) = some (some CheckBadSTR)) →
    runSession C d cc ops = some (d', cc, refusals A ops) := by
  induction ops with
  | nil =>
    intro d log A i _ _ d' log' h _
    simp only [List.map_nil, Directory.runLog, Option.some.injEq, Prod.mk.injEq] at h
    simp [runSession, refusals, h.1]
  | cons op ops ih =>
    intro d log A i hns hlen d' log' h hbad
    rw [List.map_cons] at h hlen
    rw [dirUpdates_cons] at hlen
    have bad : cc.aud.checkSTRAgainstVerified C (some d.latestSTR) = some (some CheckBadSTR) :=
      hbad d.pad.latest (runLog_ext _ _ _ _ _ h _ (List.mem_of_getLast? i.pad.last))
    obtain ⟨d1, r, h1, h2⟩ := runLog_cons_some h
    have hil : (log ++ op.dirOp.issued d1).length = log.length + dirUpdates [op.dirOp] := by simp [issued_length]
    have hnames : ∀ n ∈ regNames [op.dirOp], n ∈ ns := by
      intro n hn
      apply hns
      cases op with
      | lookup n key => simp [SesOp.dirOp, regNames] at hn
      | dir op => simp only [sesNames]; exact List.mem_append_left _ hn
      | register rnd n k => simp only [sesNames]; exact List.mem_append_left _ hn
    have hrest : ∀ n ∈ sesNames ops, n ∈ ns := by
      intro n hn
      apply hns
      cases op <;> simp only [sesNames]
      · exact List.mem_append_right _ hn
      · exact List.mem_cons_of_mem _ hn
      · exact List.mem_append_right _ hn
    have hsub : ∀ n ∈ ns, IndexSpread (fun k => (C.vrfProve vk k).1) (n :: ns) := by
      intro n hn a ha b hb e
      refine spread a ?_ b ?_ e
      · rcases List.mem_cons.mp ha with h | h; exact h ▸ hn; exact h
      · rcases List.mem_cons.mp hb with h | h; exact h ▸ hn; exact h
    obtain ⟨A', i1, _, hA⟩ := dir_step_inv i op.dirOp hnames inj (by omega) d1 r h1
    rw [hA spread] at i1
    have hrec := ih d1 _ _ i1 hrest (by rw [hil]; omega) d' log' h2 hbad
    cases op with
    | dir op =>
      simp only [runSession, refusals]
      rw [show d.step C op = some (d1, r) from h1]
      exact hrec
    | lookup n key =>
      have hn : n ∈ ns := hns n (by simp [sesNames])
      obtain ⟨resp, g1, g2⟩ := keyLookup_spec i ⟨n⟩ (spread_inj (hsub n hn))
      have g2 : Answers C sk vk n d.latestSTR resp (A.lookupAnswer n) := by
        rcases g2 with ⟨_, x, _⟩ | x
        · exact absurd (hsub n hn) x
        · exact x
      have hd1 : d1 = d := by
        simp only [SesOp.dirOp, Directory.step, g1, Option.map_some, Option.some.injEq, Prod.mk.injEq] at h1
        exact h1.1.symm
      subst hd1
      have hcode : answered (A.lookupAnswer n) = true → errorsSet (A.lookupAnswer n).1 = false := by
        unfold AbsDir.lookupAnswer
        split
        · intro h; exact absurd h (by decide)
        · split
          · intro _; rfl
          · split <;> intro _ <;> rfl
      have := bad_answer (key := key) g2 (.inr rfl) hcode bad
      simp only [runSession, refusals, g1, Option.bind_some, this]
      rw [show A.step (SesOp.dirOp (.lookup n key)) = A from rfl] at hrec
      rw [hrec]; rfl
    | register rnd n k =>
      have hn : n ∈ ns := hns n (by simp [sesNames, SesOp.dirOp, regNames])
      obtain ⟨d2, resp, g1, _, _, g2⟩ := register_spec i rnd ⟨n, k⟩ hn inj
      have g2 : Answers C sk vk n d.latestSTR resp (A.registerAnswer rnd n k) := by
        rcases g2 with ⟨_, x⟩ | x
        · exact absurd spread x
        · exact x
      have hd1 : d1 = d2 := by
        simp only [SesOp.dirOp, Directory.step, g1, Option.map_some, Option.some.injEq, Prod.mk.injEq] at h1
        exact h1.1.symm
      subst hd1
      have hcode : answered (A.registerAnswer rnd n k) = true → errorsSet (A.registerAnswer rnd n k).1 = false := by
        unfold AbsDir.registerAnswer
        split
        · intro h; exact absurd h (by decide)
        · split
          · intro _; rfl
          · split
            · intro _; rfl
            · split
              · intro _; rfl
              · intro h; exact absurd h (by decide)
      have := bad_answer (key := some k) g2 (.inl rfl) hcode bad
      simp only [runSession, refusals, g1, Option.bind_some, this]
      rw [show A.step (SesOp.dirOp (.register rnd n k)) = A.step (.register rnd ⟨n, k⟩) from rfl] at hrec
      rw [hrec]; rfl

end Coniks
