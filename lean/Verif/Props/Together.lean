import Verif.Props.AuditLog
import Verif.Props.Split
import Verif.Props.Trio
/-
C86: users who check with the same auditor cannot be kept apart by a malicious directory.
-/
namespace Coniks.Props
open Coniks Spec

/-! ### what a passed check means -/

/-- a log reports at most one history -/
theorem reports_unique {l : AuditLog} {id : Arr32} {H H' : List DirSTR} (h : ReportsExactly l id H) (h' : ReportsExactly l id H')
    (hn : H.length < 2 ^ 64) : H = H' := by
  have z : (0 : UInt64).toNat = 0 := rfl
  have ne : ∀ x, (⟨ReqSuccess, .history x⟩ : Response) ≠ ⟨ErrMalformedMessage, .none⟩ := by
    intro x e; injection e with e1 e2; cases e2
  have key : ∀ (K K' : List DirSTR), ReportsExactly l id K → ReportsExactly l id K' → K.length < 2 ^ 64 →
      ¬ K.length < K'.length := by
    intro K K' k k' b hlt
    have e : (UInt64.ofNat K.length).toNat = K.length := ofNat_toNat64 b
    have r := (k 0 (UInt64.ofNat K.length)).2 (by rw [e]; omega)
    have r' := (k' 0 (UInt64.ofNat K.length)).1 (by rw [e, z]; omega)
    rw [r] at r'
    exact ne _ r'.symm
  have hl : H.length = H'.length := by
    have h1 := key H H' h h' hn
    have h2 := key H' H h' h (by omega)
    omega
  cases H with
  | nil => cases H' with
    | nil => rfl
    | cons x r => simp at hl
  | cons x r =>
    have hp : 0 < (x :: r).length := by simp
    have e : (UInt64.ofNat ((x :: r).length - 1)).toNat = (x :: r).length - 1 := ofNat_toNat64 (by omega)
    have r1 := (h 0 (UInt64.ofNat ((x :: r).length - 1))).1 (by rw [e, z]; omega)
    have r2 := (h' 0 (UInt64.ofNat ((x :: r).length - 1))).1 (by rw [e, z]; omega)
    rw [r1] at r2
    injection r2 with _ r2
    injection r2 with r2
    have r3 := (List.map_inj_right (fun _ _ h => Option.some.inj h)).mp r2
    rw [e, z, List.drop_zero, List.drop_zero, show (x :: r).length - 1 + 1 - 0 = (x :: r).length by omega, List.take_length] at r3
    rw [r3, hl, List.take_length]

/-- the last STR of the range asked for -/
theorem range_last {H : List DirSTR} {s t : Nat} (h1 : s ≤ t) (h2 : t < H.length) : ((H.drop s).take (t + 1 - s)).getLast? = H[t]? := by
  have hl : ((H.drop s).take (t + 1 - s)).length = t + 1 - s := by rw [List.length_take, List.length_drop]; omega
  rw [List.getLast?_eq_getElem?, hl, List.getElem?_take, if_pos (by omega), List.getElem?_drop]
  congr 1; omega

/-- a part of a chain is a chain -/
theorem range_chain {C : Crypto} {pk : Bytes} {H : List DirSTR} (h : Chain C pk H) (s n : Nat) : Chain C pk ((H.drop s).take n) := by
  intro j a b ha hb
  rw [List.getElem?_take] at ha hb
  split at hb
  · rw [if_pos (by omega), List.getElem?_drop] at ha
    rw [List.getElem?_drop] at hb
    exact h (s + j) a b ha (by rw [Nat.add_assoc]; exact hb)
  · nomatch hb

/-- A check that passes tells what the auditor has for the client's epoch: the client's STR exactly, when the range asked for ends there. -/
theorem passed_own {C : Crypto} {l : AuditLog} {id : Arr32} {H : List DirSTR} (hr : ReportsExactly l id H)
    (hep : ∀ (j : Nat) t, H[j]? = some t → t.core.epoch.toNat = j) {A : Client} {s : UInt64}
    (h : A.checkEquivocation C (l.getObservedSTRs ⟨id, s, A.aud.verified.core.epoch⟩) = some none) :
    H[A.aud.verified.core.epoch.toNat]? = some A.aud.verified := by
  obtain ⟨herr, L, last, h1, h2, _, h4⟩ := (C40_accepts_iff C A _).mp h
  by_cases hc : s.toNat ≤ A.aud.verified.core.epoch.toNat ∧ A.aud.verified.core.epoch.toNat < H.length
  · rw [(hr _ _).1 hc] at h1
    injection h1 with h1
    have := (List.map_inj_right (fun _ _ h => Option.some.inj h)).mp h1
    subst this
    rw [range_last hc.1 hc.2] at h2
    rw [h2]
    rcases h4 with h4 | h4
    · rw [h4]
    · have e1 := hep _ _ h2
      have e2 := h4.2.epoch
      rw [UInt64.toNat_inj.mp e1] at e2
      exact absurd e2.symm (uint64_succ_ne _)
  · rw [(hr _ _).2 hc] at h1
    nomatch h1

/-- ... and up to the hash of the signature, when the range ends there or one epoch later, which are the only ranges that pass. -/
theorem passed_any {C : Crypto} {pk : Bytes} {l : AuditLog} {id : Arr32} {H : List DirSTR} (hr : ReportsExactly l id H)
    (hep : ∀ (j : Nat) t, H[j]? = some t → t.core.epoch.toNat = j) (hch : Chain C pk H) {A : Client} (hA : A.aud.verified.core.epoch + 1 ≠ 0)
    {s t : UInt64} (h : A.checkEquivocation C (l.getObservedSTRs ⟨id, s, t⟩) = some none) :
    (t = A.aud.verified.core.epoch ∨ t = A.aud.verified.core.epoch + 1) ∧
    ∃ x, H[A.aud.verified.core.epoch.toNat]? = some x ∧ C.hash x.core.signature = C.hash A.aud.verified.core.signature := by
  obtain ⟨herr, L, last, h1, h2, _, h4⟩ := (C40_accepts_iff C A _).mp h
  by_cases hc : s.toNat ≤ t.toNat ∧ t.toNat < H.length
  · rw [(hr _ _).1 hc] at h1
    injection h1 with h1
    have := (List.map_inj_right (fun _ _ h => Option.some.inj h)).mp h1
    subst this
    rw [range_last hc.1 hc.2] at h2
    have e1 := UInt64.toNat_inj.mp (hep _ _ h2)
    rcases h4 with h4 | h4
    · subst h4
      exact ⟨.inl e1.symm, _, by rw [e1]; exact h2, rfl⟩
    · have e2 : t = A.aud.verified.core.epoch + 1 := e1.symm.trans h4.2.epoch
      refine ⟨.inr e2, ?_⟩
      have e3 : t.toNat = A.aud.verified.core.epoch.toNat + 1 := by
        have hb : A.aud.verified.core.epoch.toNat + 1 < 2 ^ 64 := by
          have hlt := A.aud.verified.core.epoch.toNat_lt
          have : A.aud.verified.core.epoch.toNat + 1 ≠ 2 ^ 64 := by
            intro e
            apply hA
            apply UInt64.toNat_inj.mp
            rw [UInt64.toNat_add, show (1 : UInt64).toNat = 1 from rfl, e]
            rfl
          omega
        rw [e2, UInt64.toNat_add, show (1 : UInt64).toNat = 1 from rfl, Nat.mod_eq_of_lt hb]
      have hx : H[A.aud.verified.core.epoch.toNat]? = some H[A.aud.verified.core.epoch.toNat] := List.getElem?_eq_getElem (by omega)
      have hs := hch _ _ _ hx (by rw [← e3]; exact h2)
      exact ⟨_, hx, hs.2.hash.symm.trans h4.2.hash⟩
  · rw [(hr _ _).2 hc] at h1
    nomatch h1

/-! ### C86 -/

/-- C86, one history. An auditor's log is initialised for a directory with a chain `H0` and from then on receives any messages whatever, from
the directory or from others. At every moment there is one history `H`, a hash chain that extends `H0` and that the log reports, such that
every client, whoever it is and whatever it was shown, that passes a check against this log at that moment or that passed one at an earlier
moment, with a range that ends at its own epoch, holds exactly the STR of `H` for its epoch. Nothing is assumed about the cryptography. -/
theorem C86_one_history (C : Crypto) (l₀ l₁ : AuditLog) (addr pk : Bytes) (s : DirSTR) (H0 : List DirSTR) (hs : H0[0]? = some s)
    (he : s.core.epoch = 0) (hc : Chain C pk H0) (hi : l₀.initHistory C addr pk (H0.map some) = some (l₁, none))
    (ops : List LogOp) (hsm : H0.length + strsFor (dirId C s) ops < 2 ^ 64) (l : AuditLog) (hl : logAfter C l₁ ops = some l) :
    ∃ H, H0 <+: H ∧ Chain C pk H ∧ ReportsExactly l (dirId C s) H ∧
      ∀ (earlier rest : List LogOp) (la : AuditLog), ops = earlier ++ rest → logAfter C l₁ earlier = some la → ∀ (A : Client) (from_ : UInt64),
        A.checkEquivocation C (la.getObservedSTRs ⟨dirId C s, from_, A.aud.verified.core.epoch⟩) = some none →
        H[A.aud.verified.core.epoch.toNat]? = some A.aud.verified := by
  obtain ⟨H, H', p1, p2, c1, _, r1, c2, ep2, r2⟩ := C42_append_only C l₀ l₁ addr pk s H0 hs he hc hi ops [] (by simpa using hsm) l l hl rfl
  refine ⟨H', p1.trans p2, c2, r2, ?_⟩
  intro earlier rest la hops hla A fr hA
  subst hops
  have hrest : logAfter C la rest = some l := by
    have : ∀ (a b : List LogOp) (m m' : AuditLog), logAfter C m a = some m' → logAfter C m (a ++ b) = logAfter C m' b := by
      intro a
      induction a with
      | nil => intro b m m' h; cases h; rfl
      | cons op a ih =>
        intro b m m' h
        obtain ⟨x, h1, h2⟩ := Option.bind_eq_some_iff.mp h
        show (logStep C m op).bind _ = _
        rw [h1]
        exact ih b x.1 m' h2
    rw [← this earlier rest l₁ la hla]; exact hl
  obtain ⟨Ha, Hb, q1, q2, _, epa, ra, cb, epb, rb⟩ := C42_append_only C l₀ l₁ addr pk s H0 hs he hc hi earlier rest hsm la l hla hrest
  have hsame : ∀ (j : Nat) t, Ha[j]? = some t → H'[j]? = some t := by
    intro j t hj
    have hbj : Hb[j]? = some t := by
      obtain ⟨m, rfl⟩ := q2
      rw [List.getElem?_append_left (List.getElem?_eq_some_iff.mp hj).1]; exact hj
    have hjl := (List.getElem?_eq_some_iff.mp hbj).1
    have hj64 : j < 2 ^ 64 := by rw [← epb j t hbj]; exact t.core.epoch.toNat_lt
    have e : (UInt64.ofNat j).toNat = j := ofNat_toNat64 hj64
    have g1 := (rb (UInt64.ofNat j) (UInt64.ofNat j)).1 (by rw [e]; omega)
    by_cases hj' : j < H'.length
    · have g2 := (r2 (UInt64.ofNat j) (UInt64.ofNat j)).1 (by rw [e]; omega)
      rw [g1] at g2
      injection g2 with _ g2
      injection g2 with g2
      have g3 := (List.map_inj_right (fun _ _ h => Option.some.inj h)).mp g2
      have g4 := congrArg (fun L => L[0]?) g3
      simp only [e, List.getElem?_take, show 0 < j + 1 - j by omega, if_true, List.getElem?_drop, Nat.add_zero] at g4
      rw [← g4]; exact hbj
    · have g2 := (r2 (UInt64.ofNat j) (UInt64.ofNat j)).2 (by rw [e]; omega)
      rw [g1] at g2
      injection g2 with _ g2
      nomatch g2
  exact hsame _ _ (passed_own ra epa hA)

/-- C86: two clients that checked with the same auditor, at whatever moments, and that hold STRs of the same epoch hold the same STR, in
every field. -/
theorem C86_same_str (C : Crypto) (l₀ l₁ : AuditLog) (addr pk : Bytes) (s : DirSTR) (H0 : List DirSTR) (hs : H0[0]? = some s)
    (he : s.core.epoch = 0) (hc : Chain C pk H0) (hi : l₀.initHistory C addr pk (H0.map some) = some (l₁, none))
    (a b : List LogOp) (hsm : H0.length + strsFor (dirId C s) (a ++ b) < 2 ^ 64)
    (la lb : AuditLog) (ha : logAfter C l₁ a = some la) (hb : logAfter C la b = some lb) (A B : Client) (sA sB : UInt64)
    (hA : A.checkEquivocation C (la.getObservedSTRs ⟨dirId C s, sA, A.aud.verified.core.epoch⟩) = some none)
    (hB : B.checkEquivocation C (lb.getObservedSTRs ⟨dirId C s, sB, B.aud.verified.core.epoch⟩) = some none)
    (hep : A.aud.verified.core.epoch = B.aud.verified.core.epoch) : A.aud.verified = B.aud.verified := by
  obtain ⟨Ha, Hb, q1, q2, _, epa, ra, cb, epb, rb⟩ := C42_append_only C l₀ l₁ addr pk s H0 hs he hc hi a b hsm la lb ha hb
  have g1 := passed_own ra epa hA
  have g2 := passed_own rb epb hB
  obtain ⟨m, rfl⟩ := q2
  rw [← hep, List.getElem?_append_left (List.getElem?_eq_some_iff.mp g1).1, g1] at g2
  exact Option.some.inj g2

/-- C86: whatever ranges they asked for, two clients of the same epoch that pass hold STRs with the same hash of the signature, that is, the
same signature unless the hash collides on the two. -/
theorem C86_same_signature (C : Crypto) (l₀ l₁ : AuditLog) (addr pk : Bytes) (s : DirSTR) (H0 : List DirSTR) (hs : H0[0]? = some s)
    (he : s.core.epoch = 0) (hc : Chain C pk H0) (hi : l₀.initHistory C addr pk (H0.map some) = some (l₁, none))
    (a b : List LogOp) (hsm : H0.length + strsFor (dirId C s) (a ++ b) < 2 ^ 64)
    (la lb : AuditLog) (ha : logAfter C l₁ a = some la) (hb : logAfter C la b = some lb) (A B : Client) (sA tA sB tB : UInt64)
    (hA : A.checkEquivocation C (la.getObservedSTRs ⟨dirId C s, sA, tA⟩) = some none)
    (hB : B.checkEquivocation C (lb.getObservedSTRs ⟨dirId C s, sB, tB⟩) = some none)
    (hep : A.aud.verified.core.epoch = B.aud.verified.core.epoch) (hlast : A.aud.verified.core.epoch + 1 ≠ 0) :
    C.hash A.aud.verified.core.signature = C.hash B.aud.verified.core.signature ∧
    (NoCollision C.hash [A.aud.verified.core.signature, B.aud.verified.core.signature] →
      A.aud.verified.core.signature = B.aud.verified.core.signature) := by
  obtain ⟨Ha, Hb, q1, q2, ca, epa, ra, cb, epb, rb⟩ := C42_append_only C l₀ l₁ addr pk s H0 hs he hc hi a b hsm la lb ha hb
  obtain ⟨_, x, g1, g2⟩ := passed_any ra epa ca hlast hA
  obtain ⟨_, y, g3, g4⟩ := passed_any rb epb cb (hep ▸ hlast) hB
  obtain ⟨m, rfl⟩ := q2
  rw [← hep, List.getElem?_append_left (List.getElem?_eq_some_iff.mp g1).1, g1] at g3
  cases g3
  have : C.hash A.aud.verified.core.signature = C.hash B.aud.verified.core.signature := g2.symm.trans g4
  exact ⟨this, fun nc => nc _ (by simp) _ (by simp) this⟩

/-- C86, the fork is caught: what a check says, exactly, for a client with the key the auditor has, and a range that ends at the client's
epoch, in terms of the history that the log reports: nil if the STR is the one held, `CheckBadSTR` (the evidence) if not. -/
theorem C86_check_exact (C : Crypto) (pk : Bytes) (l : AuditLog) (id : Arr32) (H : List DirSTR) (hr : ReportsExactly l id H)
    (hep : ∀ (j : Nat) t, H[j]? = some t → t.core.epoch.toNat = j) (hch : Chain C pk H) (A : Client) (hk : A.aud.signKey = pk)
    (s : UInt64) (h1 : s ≤ A.aud.verified.core.epoch) (x : DirSTR) (hx : H[A.aud.verified.core.epoch.toNat]? = some x) :
    A.checkEquivocation C (l.getObservedSTRs ⟨id, s, A.aud.verified.core.epoch⟩) =
      some (if x = A.aud.verified then none else some CheckBadSTR) := by
  have hlt := (List.getElem?_eq_some_iff.mp hx).1
  rw [UInt64.le_iff_toNat_le] at h1
  rw [(hr _ _).1 ⟨h1, hlt⟩]
  have hlast := @range_last H _ _ h1 hlt
  have hcr := range_chain hch s.toNat (A.aud.verified.core.epoch.toNat + 1 - s.toNat)
  generalize (H.drop s.toNat).take (A.aud.verified.core.epoch.toNat + 1 - s.toNat) = L at hlast hcr
  rw [hx] at hlast
  have hxe : x.core.epoch = A.aud.verified.core.epoch := UInt64.toNat_inj.mp (hep _ _ hx)
  cases L with
  | nil => simp at hlast
  | cons y r =>
    unfold Client.checkEquivocation Response.validate
    rw [if_neg (show ¬ errorsSet ReqSuccess = true by decide)]
    have hrange : (if (r.map some).length > 0 then A.aud.verifySTRRange C (some y) (r.map some) else some none) = some none := by
      split
      · exact (range_ok C A.aud _ y).mpr ⟨r, rfl, hk ▸ hcr⟩
      · rfl
    have hgl : (some y :: r.map some).getLast (by simp) = some x := by
      have : ((y :: r).map some).getLast? = some (some x) := by rw [List.getLast?_map, hlast]; rfl
      rw [List.map_cons, List.getLast?_eq_some_getLast (by simp)] at this
      exact Option.some.inj this
    simp only [List.map_cons, List.length_cons, Nat.add_eq_zero_iff, Nat.one_ne_zero, and_false, if_false, hrange, hgl]
    simp only [AudState.checkSTRAgainstVerified, hxe, if_true, AudState.compareWithVerified, eq_comm]

/-- C86, the fork is caught: a directory that has shown two clients different STRs of one epoch cannot get both through the check, once the
auditor knows that epoch; one of the two gets `CheckBadSTR`. -/
theorem C86_fork_caught (C : Crypto) (l₀ l₁ : AuditLog) (addr pk : Bytes) (s : DirSTR) (H0 : List DirSTR) (hs : H0[0]? = some s)
    (he : s.core.epoch = 0) (hc : Chain C pk H0) (hi : l₀.initHistory C addr pk (H0.map some) = some (l₁, none))
    (a b : List LogOp) (hsm : H0.length + strsFor (dirId C s) (a ++ b) < 2 ^ 64)
    (la lb : AuditLog) (ha : logAfter C l₁ a = some la) (hb : logAfter C la b = some lb) (A B : Client)
    (kA : A.aud.signKey = pk) (kB : B.aud.signKey = pk) (hep : A.aud.verified.core.epoch = B.aud.verified.core.epoch)
    (fork : A.aud.verified ≠ B.aud.verified)
    (known : (la.getObservedSTRs ⟨dirId C s, A.aud.verified.core.epoch, A.aud.verified.core.epoch⟩).error = ReqSuccess)
    (sA sB : UInt64) (hsA : sA ≤ A.aud.verified.core.epoch) (hsB : sB ≤ B.aud.verified.core.epoch) :
    A.checkEquivocation C (la.getObservedSTRs ⟨dirId C s, sA, A.aud.verified.core.epoch⟩) = some (some CheckBadSTR) ∨
    B.checkEquivocation C (lb.getObservedSTRs ⟨dirId C s, sB, B.aud.verified.core.epoch⟩) = some (some CheckBadSTR) := by
  obtain ⟨Ha, Hb, q1, q2, ca, epa, ra, cb, epb, rb⟩ := C42_append_only C l₀ l₁ addr pk s H0 hs he hc hi a b hsm la lb ha hb
  have hlt : A.aud.verified.core.epoch.toNat < Ha.length := by
    apply Decidable.byContradiction
    intro hn
    rw [(ra _ _).2 (by omega)] at known
    exact absurd known (by decide)
  have hx := List.getElem?_eq_getElem hlt
  have hy : Hb[B.aud.verified.core.epoch.toNat]? = some Ha[A.aud.verified.core.epoch.toNat] := by
    obtain ⟨m, rfl⟩ := q2
    rw [← hep, List.getElem?_append_left hlt]; exact hx
  rw [C86_check_exact C pk la _ Ha ra epa ca A kA sA hsA _ hx, C86_check_exact C pk lb _ Hb rb epb cb B kB sB hsB _ hy]
  by_cases h : Ha[A.aud.verified.core.epoch.toNat] = A.aud.verified
  · right
    rw [if_neg (fun h' => fork (h.symm.trans h'))]
  · left
    rw [if_neg h]

/-- C86, the keys: two users ask for the same name, accept the answers, hold STRs of the same epoch and check with the same auditor. Then the
two answers said the same about the tree: the same key, or absence. (As in C51: proofs shaped like those of the tree code, no collision among
what was hashed, no two VRF values for the name.) -/
theorem C86_same_view (C : Crypto) (l₀ l₁ : AuditLog) (addr pk : Bytes) (s : DirSTR) (H0 : List DirSTR) (hs : H0[0]? = some s)
    (he : s.core.epoch = 0) (hc : Chain C pk H0) (hi : l₀.initHistory C addr pk (H0.map some) = some (l₁, none))
    (a b : List LogOp) (hsm : H0.length + strsFor (dirId C s) (a ++ b) < 2 ^ 64)
    (la lb : AuditLog) (ha : logAfter C l₁ a = some la) (hb : logAfter C la b = some lb)
    (c₁ c₂ A B : Client) (t₁ : c₁.useTBs = true) (t₂ : c₂.useTBs = true)
    (ty₁ ty₂ : Int) (m₁ m₂ : Response) (name : Bytes) (k₁ k₂ : Option Bytes)
    (h₁ : c₁.handleResponse C ty₁ m₁ name k₁ = some (A, none)) (h₂ : c₂.handleResponse C ty₂ m₂ name k₂ = some (B, none))
    (sA sB : UInt64)
    (hA : A.checkEquivocation C (la.getObservedSTRs ⟨dirId C s, sA, A.aud.verified.core.epoch⟩) = some none)
    (hB : B.checkEquivocation C (lb.getObservedSTRs ⟨dirId C s, sB, B.aud.verified.core.epoch⟩) = some none)
    (hep : A.aud.verified.core.epoch = B.aud.verified.core.epoch)
    (s₁ : ShapedProof m₁) (s₂ : ShapedProof m₂)
    (uniq : ∀ pol, A.aud.verified.policies = some pol → VrfAgree C pol.vrfPublicKey name m₁ m₂)
    (nc : NoCollision C.hash (proofInputs C m₁ name ++ proofInputs C m₂ name)) :
    ∃ view, treeSays m₁ = some view ∧ treeSays m₂ = some view ∧
      ∀ v, view = some v → (∀ k, k₁ = some k → k = v) ∧ (∀ k, k₂ = some k → k = v) := by
  have same := C86_same_str C l₀ l₁ addr pk s H0 hs he hc hi a b hsm la lb ha hb A B sA sB hA hB hep
  exact C51_same_str_same_view_partial C c₁ c₂ A B t₁ t₂ ty₁ ty₂ m₁ m₂ name k₁ k₂ h₁ h₂
    (by rw [same]; exact ⟨rfl, rfl, fun _ => rfl, rfl, rfl, rfl⟩) s₁ s₂ uniq nc

/-- one client against the auditor's history: what it held before, however long ago, is what the history has for that epoch -/
theorem past_of_check {C : Crypto} {pk : Bytes} {H : List DirSTR} (hch : Chain C pk H)
    (hep : ∀ (j : Nat) t, H[j]? = some t → t.core.epoch.toNat = j) {c f : Client} (hk : c.aud.signKey = pk) {later : List ClientCall}
    (hg : clientAfter C c later = some f) (hf : H[f.aud.verified.core.epoch.toNat]? = some f.aud.verified)
    (hn : c.aud.verified.core.epoch.toNat + later.length < 2 ^ 64)
    (sg : ∀ x ∈ heldSTRs C c later ++ H, Signed C pk x ∧ Regular x)
    (nc : NoCollision C.hash ((heldSTRs C c later ++ H).map fun x => x.core.signature)) (bind : SigBinding C pk (heldSTRs C c later ++ H)) :
    ∃ x, H[c.aud.verified.core.epoch.toNat]? = some x ∧ SameSTR c.aud.verified x := by
  obtain ⟨l, a1, a2, a3, a4, a5⟩ := held_chain C later c f hg
  rw [hk] at a3
  have p1 : 0 < l.length := (List.getElem?_eq_some_iff.mp a1).1
  have e1 : l[l.length - 1]? = some f.aud.verified := by rw [List.getLast?_eq_getElem?] at a2; exact a2
  have x1 := chain_epoch a3 0 (l.length - 1) _ _ a1 (by rw [Nat.zero_add]; exact e1)
  have x2 : f.aud.verified.core.epoch.toNat = c.aud.verified.core.epoch.toNat + (l.length - 1) := by
    rw [x1, UInt64.toNat_add, ofNat_toNat64 (by omega), Nat.mod_eq_of_lt (by omega)]
  have hlt := (List.getElem?_eq_some_iff.mp hf).1
  have hx : H[c.aud.verified.core.epoch.toNat]? = some H[c.aud.verified.core.epoch.toNat] := List.getElem?_eq_getElem (by omega)
  have hsub : ∀ s ∈ l ++ H, s ∈ heldSTRs C c later ++ H := by
    intro s hs
    rcases List.mem_append.mp hs with h | h
    · exact List.mem_append_left _ (a5 s h)
    · exact List.mem_append_right _ h
  refine ⟨_, hx, C41_same_past_partial C pk l H a3 hch (fun s hs => (sg s (hsub s hs)).1) (fun s hs => (sg s (hsub s hs)).2)
    (noColl_sub nc ?_) (fun a ha b hb => bind a (hsub a ha) b (hsub b hb)) (l.length - 1) f.aud.verified.core.epoch.toNat _ e1 hf
    (l.length - 1) _ _ (by omega) (by omega) (by rw [Nat.sub_self]; exact a1) ?_⟩
  · intro x hx
    obtain ⟨s, hs, rfl⟩ := List.mem_map.mp hx
    exact List.mem_map.mpr ⟨s, hsub s hs, rfl⟩
  · rw [x2, Nat.add_sub_cancel]; exact hx

/-- C86, over time. Two users accept answers about one name in the same epoch. Each goes on for any number of calls, and later, not
necessarily in the same epoch or at the same moment, each checks once with the same auditor. Then the STRs of the old answers had the
same content and the answers said the same. So one check covers all the past of both users. (STRs with fields of the usual lengths, C41; no
collision and no ambiguous signature among the STRs the users held and the auditor reports.) -/
theorem C86_same_past (C : Crypto) (l₀ l₁ : AuditLog) (addr pk : Bytes) (s : DirSTR) (H0 : List DirSTR) (hs : H0[0]? = some s)
    (he : s.core.epoch = 0) (hc : Chain C pk H0) (hi : l₀.initHistory C addr pk (H0.map some) = some (l₁, none))
    (a b : List LogOp) (hsm : H0.length + strsFor (dirId C s) (a ++ b) < 2 ^ 64)
    (la lb : AuditLog) (ha : logAfter C l₁ a = some la) (hb : logAfter C la b = some lb)
    (c₁ c₂ A B f₁ f₂ : Client) (t₁ : c₁.useTBs = true) (t₂ : c₂.useTBs = true)
    (ty₁ ty₂ : Int) (m₁ m₂ : Response) (name : Bytes) (k₁ k₂ : Option Bytes) (later₁ later₂ : List ClientCall)
    (kA : A.aud.signKey = pk) (kB : B.aud.signKey = pk)
    (h₁ : c₁.handleResponse C ty₁ m₁ name k₁ = some (A, none)) (h₂ : c₂.handleResponse C ty₂ m₂ name k₂ = some (B, none))
    (hep : A.aud.verified.core.epoch = B.aud.verified.core.epoch)
    (g₁ : clientAfter C A later₁ = some f₁) (g₂ : clientAfter C B later₂ = some f₂)
    (n₁ : A.aud.verified.core.epoch.toNat + later₁.length < 2 ^ 64) (n₂ : A.aud.verified.core.epoch.toNat + later₂.length < 2 ^ 64)
    (sA sB : UInt64)
    (hA : f₁.checkEquivocation C (la.getObservedSTRs ⟨dirId C s, sA, f₁.aud.verified.core.epoch⟩) = some none)
    (hB : f₂.checkEquivocation C (lb.getObservedSTRs ⟨dirId C s, sB, f₂.aud.verified.core.epoch⟩) = some none)
    (H : List DirSTR) (hH : ReportsExactly lb (dirId C s) H) (hHn : H.length < 2 ^ 64)
    (sg : ∀ x ∈ heldSTRs C A later₁ ++ heldSTRs C B later₂ ++ H, Signed C pk x ∧ Regular x)
    (nc' : NoCollision C.hash ((heldSTRs C A later₁ ++ heldSTRs C B later₂ ++ H).map fun x => x.core.signature))
    (bind : SigBinding C pk (heldSTRs C A later₁ ++ heldSTRs C B later₂ ++ H))
    (s₁ : ShapedProof m₁) (s₂ : ShapedProof m₂)
    (uniq : ∀ pol, A.aud.verified.policies = some pol → VrfAgree C pol.vrfPublicKey name m₁ m₂)
    (nc : NoCollision C.hash (proofInputs C m₁ name ++ proofInputs C m₂ name)) :
    SameSTR A.aud.verified B.aud.verified ∧
    ∃ view, treeSays m₁ = some view ∧ treeSays m₂ = some view ∧
      ∀ v, view = some v → (∀ k, k₁ = some k → k = v) ∧ (∀ k, k₂ = some k → k = v) := by
  obtain ⟨Ha, Hb, q1, q2, ca, epa, ra, cb, epb, rb⟩ := C42_append_only C l₀ l₁ addr pk s H0 hs he hc hi a b hsm la lb ha hb
  have := reports_unique hH rb hHn
  subst this
  have e1 : H[f₁.aud.verified.core.epoch.toNat]? = some f₁.aud.verified := by
    have g := passed_own ra epa hA
    obtain ⟨m, rfl⟩ := q2
    rw [List.getElem?_append_left (List.getElem?_eq_some_iff.mp g).1]; exact g
  have e2 := passed_own rb epb hB
  have sub : ∀ (X : List DirSTR), (∀ x ∈ X, x ∈ heldSTRs C A later₁ ++ heldSTRs C B later₂ ++ H) → ∀ y ∈ X.map (fun x => x.core.signature),
      y ∈ (heldSTRs C A later₁ ++ heldSTRs C B later₂ ++ H).map fun x => x.core.signature := by
    intro X hX y hy
    obtain ⟨x, hx, rfl⟩ := List.mem_map.mp hy
    exact List.mem_map.mpr ⟨x, hX x hx, rfl⟩
  have i1 : ∀ x ∈ heldSTRs C A later₁ ++ H, x ∈ heldSTRs C A later₁ ++ heldSTRs C B later₂ ++ H := by
    intro x hx; simp only [List.mem_append] at hx ⊢
    rcases hx with h | h
    · exact .inl (.inl h)
    · exact .inr h
  have i2 : ∀ x ∈ heldSTRs C B later₂ ++ H, x ∈ heldSTRs C A later₁ ++ heldSTRs C B later₂ ++ H := by
    intro x hx; simp only [List.mem_append] at hx ⊢
    rcases hx with h | h
    · exact .inl (.inr h)
    · exact .inr h
  obtain ⟨x, x1, x2⟩ := past_of_check cb epb kA g₁ e1 n₁ (fun x h => sg x (i1 x h)) (noColl_sub nc' (sub _ i1))
    (fun a ha b hb => bind a (i1 a ha) b (i1 b hb))
  obtain ⟨y, y1, y2⟩ := past_of_check cb epb kB g₂ e2 (hep ▸ n₂) (fun x h => sg x (i2 x h)) (noColl_sub nc' (sub _ i2))
    (fun a ha b hb => bind a (i2 a ha) b (i2 b hb))
  rw [← hep, x1] at y1
  cases y1
  have same : SameSTR A.aud.verified B.aud.verified :=
    ⟨x2.signature.trans y2.signature.symm, hep, fun h => (x2.previousEpoch h).trans (y2.previousEpoch (hep ▸ h)).symm,
      x2.treeHash.trans y2.treeHash.symm, x2.previousSTRHash.trans y2.previousSTRHash.symm, x2.policies.trans y2.policies.symm⟩
  exact ⟨same, C51_same_str_same_view_partial C c₁ c₂ A B t₁ t₂ ty₁ ty₂ m₁ m₂ name k₁ k₂ h₁ h₂ same s₁ s₂ uniq nc⟩

/-! ### the limits -/

/-- C86 needs the same auditor. For every cryptography: a directory forks after its first STR, by letting one branch change its policies.
Two auditors are initialised with the same initial STR, so they know the directory under the same identity; each follows one branch, and two
users, one on each branch, check each with the auditor of its branch. All checks pass, and the users hold different STRs of epoch 2. -/
theorem C86_two_auditors_counterexample (C : Crypto) (sk vk : Bytes) (size : Nat) (r₁ r₂ : Bytes) (t t' : UInt64) (hne : t ≠ t') :
    ∃ (s : DirSTR) (l₁ lA lB : AuditLog) (mA mB : Response) (A B : Client),
      newAuditLog.initHistory C [] (C.signPub sk) [some s] = some (l₁, none) ∧
      l₁.audit C (dirId C s) mA = some (lA, none) ∧ l₁.audit C (dirId C s) mB = some (lB, none) ∧
      newClient A.aud.verified true (C.signPub sk) = some A ∧ newClient B.aud.verified true (C.signPub sk) = some B ∧
      A.checkEquivocation C (lA.getObservedSTRs ⟨dirId C s, 0, 2⟩) = some none ∧
      B.checkEquivocation C (lB.getObservedSTRs ⟨dirId C s, 0, 2⟩) = some none ∧
      A.aud.verified.core.epoch = 2 ∧ B.aud.verified.core.epoch = 2 ∧ A.aud.verified ≠ B.aud.verified := by
  obtain ⟨d0, log0, h0⟩ := C31_history_runs C t sk vk size r₁ r₂ [] (by decide) (by simp)
  -- one branch
  have branch : ∀ ops : List DirOp, dirUpdates ops = 2 → (∀ req, DirOp.getSTRHistory req ∉ ops) →
      ∃ x y z, (dirAfter C t sk vk size r₁ r₂ ops).map Prod.snd = some [x, y, z] ∧ log0 = [x] ∧
        Chain C (C.signPub sk) [x.toDir, y.toDir, z.toDir] ∧ x.toDir.core.epoch = 0 ∧ z.toDir.core.epoch = 2 := by
    intro ops hu hno
    obtain ⟨d, log, h⟩ := C31_history_runs C t sk vk size r₁ r₂ ops (by rw [hu]; decide) hno
    obtain ⟨inv, hl⟩ := dirAfter_exact C t sk vk size r₁ r₂ ops (by rw [hu]; decide) d log h
    obtain ⟨_, hl0⟩ := dirAfter_exact C t sk vk size r₁ r₂ [] (by decide) d0 log0 h0
    obtain ⟨ext, he⟩ := dirAfter_prefix C t sk vk size r₁ r₂ [] ops d log h d0 log0 h0
    rw [hu] at hl
    have hl0 : log0.length = 1 := hl0
    obtain ⟨x, y, z, rfl⟩ : ∃ x y z, log = [x, y, z] := by
      match log, hl with
      | [x, y, z], _ => exact ⟨x, y, z, rfl⟩
    refine ⟨x, y, z, by rw [h]; rfl, ?_, ?_, inv.pad.epoch 0 x rfl, inv.pad.epoch 2 z rfl⟩
    · match log0, hl0 with
      | [w], _ => simp at he; rw [he.1]
    · have := @strPart_chain C d.pad _ inv.pad 0 3
      unfold strPart at this
      rw [inv.skEq] at this
      exact this
  obtain ⟨x, y, z, a1, a2, a3, a4, a5⟩ := branch [.update, .update] rfl (by simp)
  obtain ⟨x', y', z', b1, b2, b3, b4, b5⟩ := branch [.setPolicies t', .update, .update] rfl (by simp)
  have : x' = x := by rw [a2] at b2; simpa using b2.symm
  subst this
  have hz : z.toDir ≠ z'.toDir := by
    obtain ⟨p, p1, p2⟩ := Option.map_eq_some_iff.mp a1
    obtain ⟨q, q1, q2⟩ := Option.map_eq_some_iff.mp b1
    have u1 := (C21_policies_delay C t sk vk size r₁ r₂ _ p.1 p.2 p1).2.2 [] [.update] rfl z (by rw [p2]; rfl)
    have u2 := (C21_policies_delay C t sk vk size r₁ r₂ _ q.1 q.2 q1).2.2 [.setPolicies t'] [.update] rfl z' (by rw [q2]; rfl)
    intro h
    have h1 : some z.ad = some z'.ad := congrArg DirSTR.policies h
    rw [u1, u2, Option.some.injEq] at h1
    exact hne (congrArg Policies.epochDeadline h1)
  -- the log of one auditor
  have hinit : ∃ h, newAuditLog.initHistory C [] (C.signPub sk) ([x'.toDir].map some) =
      some (newAuditLog.set (dirId C x'.toDir) h, none) := by
    refine ⟨newDirectoryHistory [] (C.signPub sk) x'.toDir, ?_⟩
    simp [AuditLog.initHistory, a4, computeDirectoryIdentity, newAuditLog, DirHistory.insertRange, dirId, Crypto.digest]
  obtain ⟨h0, hinit⟩ := hinit
  have follow : ∀ y z : STR, Chain C (C.signPub sk) [x'.toDir, y.toDir, z.toDir] → z.toDir.core.epoch = 2 →
      ∃ lA, (newAuditLog.set (dirId C x'.toDir) h0).audit C (dirId C x'.toDir) ⟨ReqSuccess, .history [some y.toDir, some z.toDir]⟩ =
          some (lA, none) ∧
        (⟨newAudState (C.signPub sk) z.toDir, fun _ => none, true, fun _ => none⟩ : Client).checkEquivocation C
          (lA.getObservedSTRs ⟨dirId C x'.toDir, 0, 2⟩) = some none := by
    intro y z hch hz
    obtain ⟨hh, g1, g2, g3⟩ := initHistory_hist a4 (chain_single C (C.signPub sk) x'.toDir) (by decide) hinit
    have hv : hh.aud.verified = x'.toDir := by have := g2.last; simpa using this.symm
    have hset : (newAuditLog.set (dirId C x'.toDir) h0) (dirId C x'.toDir) = some h0 := by simp [AuditLog.set]
    have : h0 = hh := by rw [hset] at g1; exact Option.some.inj g1
    subst this
    obtain ⟨h2, e1, e2, e3⟩ := Hist.insertRange [y.toDir, z.toDir] g2 (by rw [g3, hv]; exact hch)
      (by simp only [List.length_cons, List.length_nil]; omega)
    have haud : h0.audit C ⟨ReqSuccess, .history [some y.toDir, some z.toDir]⟩ = some (h2, none) := by
      have hok : h0.aud.auditDirectory C [some y.toDir, some z.toDir] = some none := by
        rw [audit_ok]
        refine ⟨[y.toDir, z.toDir], rfl, ⟨y.toDir, rfl, .inr ?_⟩, ?_⟩
        · rw [g3, hv]; exact hch 0 _ _ rfl rfl
        · rw [g3]; exact fun j a b ha hb => hch (j + 1) a b ha hb
      have hval : (⟨ReqSuccess, .history [some y.toDir, some z.toDir]⟩ : Response).validate = some none := by
        simp [Response.validate, show ¬ errorsSet ReqSuccess = true by decide]
      unfold DirHistory.audit
      rw [hval]
      simp only [hok]
      have e1' : h0.insertRange [some y.toDir, some z.toDir] = some h2 := e1
      rw [e1']; rfl
    refine ⟨_, by unfold AuditLog.audit; rw [hset]; simp only [haud, Option.map_some]; rfl, ?_⟩
    have hr := e2.reports ((newAuditLog.set (dirId C x'.toDir) h0).set (dirId C x'.toDir) h2) (dirId C x'.toDir) (by simp [AuditLog.set])
    have := C86_check_exact C (C.signPub sk) _ _ _ hr e2.epochs (by have := e2.chain; rw [e3, g3] at this; exact this)
      ⟨newAudState (C.signPub sk) z.toDir, fun _ => none, true, fun _ => none⟩ rfl 0 (by rw [UInt64.le_iff_toNat_le]; exact Nat.zero_le _)
      z.toDir (by show _[z.toDir.core.epoch.toNat]? = _; rw [hz]; rfl)
    rw [show (⟨newAudState (C.signPub sk) z.toDir, fun _ => none, true, fun _ => none⟩ : Client).aud.verified = z.toDir from rfl, hz,
      if_pos rfl] at this
    exact this
  obtain ⟨lA, k1, k2⟩ := follow y z a3 a5
  obtain ⟨lB, k3, k4⟩ := follow y' z' b3 b5
  exact ⟨x'.toDir, _, lA, lB, _, _, _, _, hinit, k1, k3, by simp [newClient, newAudState], by simp [newClient, newAudState], k2, k4, a5, b5, hz⟩

/-! ### concrete cases -/

/-- another STR of epoch 1, just as well signed and linked to `toy0` -/
def toyFork : DirSTR := toySTR 1 0 (toyHash [6]) (toyHash toy0.core.signature)

set_option synthInstance.maxSize 1000 in
/-- the fork is caught: the auditor is given the one branch, the user on it passes, the one on the other branch gets `CheckBadSTR`; the auditor
refuses the other branch -/
example : let A : Client := ⟨newAudState toyPK toy1, fun _ => none, true, fun _ => none⟩
    let B : Client := ⟨newAudState toyPK toyFork, fun _ => none, true, fun _ => none⟩
    toy1 ≠ toyFork ∧ toy1.core.epoch = toyFork.core.epoch ∧
    ((newAuditLog.initHistory Crypto.toy [] toyPK [some toy0]).bind fun x =>
      (x.1.audit Crypto.toy (dirId Crypto.toy toy0) ⟨ReqSuccess, .history [some toy1, some toy2]⟩).bind fun y =>
      (y.1.audit Crypto.toy (dirId Crypto.toy toy0) ⟨ReqSuccess, .history [some toyFork]⟩).bind fun z =>
      (A.checkEquivocation Crypto.toy (z.1.getObservedSTRs ⟨dirId Crypto.toy toy0, 0, 1⟩)).bind fun a =>
      (B.checkEquivocation Crypto.toy (z.1.getObservedSTRs ⟨dirId Crypto.toy toy0, 0, 1⟩)).bind fun b =>
      (A.checkEquivocation Crypto.toy (z.1.getObservedSTRs ⟨dirId Crypto.toy toy0, 1, 2⟩)).bind fun c =>
      (B.checkEquivocation Crypto.toy (z.1.getObservedSTRs ⟨dirId Crypto.toy toy0, 1, 2⟩)).map fun d =>
        (x.2, y.2, z.2, (z.1.getObservedSTRs ⟨dirId Crypto.toy toy0, 1, 1⟩).error, a, b, c, d)) =
      some (none, none, some CheckBadSTR, ReqSuccess, none, some CheckBadSTR, none, some CheckBadSTR) := by
  intro A B
  exact ⟨by decide +kernel, by decide +kernel, by decide +kernel⟩

/-- the fork with two auditors exists -/
example : ∃ (s : DirSTR) (lA lB : AuditLog) (A B : Client),
    A.checkEquivocation Crypto.toy (lA.getObservedSTRs ⟨dirId Crypto.toy s, 0, 2⟩) = some none ∧
    B.checkEquivocation Crypto.toy (lB.getObservedSTRs ⟨dirId Crypto.toy s, 0, 2⟩) = some none ∧ A.aud.verified ≠ B.aud.verified := by
  obtain ⟨s, _, lA, lB, _, _, A, B, _, _, _, _, _, h1, h2, _, _, h3⟩ :=
    C86_two_auditors_counterexample Crypto.toy [1] [2] 10 [3] [4] 5 7 (by decide)
  exact ⟨s, lA, lB, A, B, h1, h2, h3⟩

/-- the history a log reports, from two questions -/
theorem reports_are {l : AuditLog} {id : Arr32} {H : List DirSTR} (h : ReportsExactly l id H) (K : List DirSTR) (n : UInt64)
    (hn : K.length = n.toNat + 1) (hb : n.toNat + 1 < 2 ^ 64)
    (h1 : l.getObservedSTRs ⟨id, 0, n⟩ = ⟨ReqSuccess, .history (K.map some)⟩)
    (h2 : l.getObservedSTRs ⟨id, 0, n + 1⟩ = ⟨ErrMalformedMessage, .none⟩) : H = K := by
  have z : (0 : UInt64).toNat = 0 := rfl
  have e : (n + 1).toNat = n.toNat + 1 := by
    rw [UInt64.toNat_add, show (1 : UInt64).toNat = 1 from rfl, Nat.mod_eq_of_lt hb]
  have hlo : n.toNat < H.length := by
    apply Decidable.byContradiction
    intro hc
    have := (h 0 n).2 (by omega)
    rw [h1] at this
    injection this with _ this
    nomatch this
  have hhi : ¬ n.toNat + 1 < H.length := by
    intro hc
    have := (h 0 (n + 1)).1 (by rw [e, z]; omega)
    rw [h2] at this
    injection this with _ this
    nomatch this
  have := (h 0 n).1 (by rw [z]; omega)
  rw [h1] at this
  injection this with _ this
  injection this with this
  have := (List.map_inj_right (fun _ _ h => Option.some.inj h)).mp this
  rw [z, List.drop_zero, List.take_of_length_le (by omega)] at this
  exact this.symm

/-- The hypotheses of `C86_same_view` and `C86_same_past` are met: a directory with two updates; one user looks up alice in epoch 1 and checks
with the auditor, who knows epochs 0 and 1 then; another is answered in epoch 1, goes on to epoch 2 and checks with the auditor, who knows
epochs 0 to 2 then. -/
example : ∃ (s : DirSTR) (l₁ la lb : AuditLog) (a b : List LogOp) (c₁ c₂ A B f₂ : Client) (m₁ m₂ : Response) (later : List ClientCall)
    (H : List DirSTR), s.core.epoch = 0 ∧
    newAuditLog.initHistory Crypto.toy [] (Crypto.toy.signPub [1]) ([s].map some) = some (l₁, none) ∧
    [s].length + strsFor (dirId Crypto.toy s) (a ++ b) < 2 ^ 64 ∧
    logAfter Crypto.toy l₁ a = some la ∧ logAfter Crypto.toy la b = some lb ∧
    c₁.handleResponse Crypto.toy KeyLookupType m₁ [0x61] (some [9, 9]) = some (A, none) ∧
    c₂.handleResponse Crypto.toy RegistrationType m₂ [0x61] none = some (B, none) ∧
    A.aud.verified.core.epoch = B.aud.verified.core.epoch ∧
    clientAfter Crypto.toy B later = some f₂ ∧ f₂.aud.verified.core.epoch = 2 ∧
    A.checkEquivocation Crypto.toy (la.getObservedSTRs ⟨dirId Crypto.toy s, 0, A.aud.verified.core.epoch⟩) = some none ∧
    B.checkEquivocation Crypto.toy (lb.getObservedSTRs ⟨dirId Crypto.toy s, 1, B.aud.verified.core.epoch⟩) = some none ∧
    f₂.checkEquivocation Crypto.toy (lb.getObservedSTRs ⟨dirId Crypto.toy s, 1, f₂.aud.verified.core.epoch⟩) = some none ∧
    ReportsExactly lb (dirId Crypto.toy s) H ∧ H.length = 3 ∧
    A.aud.signKey = Crypto.toy.signPub [1] ∧ B.aud.signKey = Crypto.toy.signPub [1] ∧
    (∀ x ∈ heldSTRs Crypto.toy A [] ++ heldSTRs Crypto.toy B later ++ H, Signed Crypto.toy (Crypto.toy.signPub [1]) x ∧ Regular x) ∧
    NoCollision Crypto.toy.hash ((heldSTRs Crypto.toy A [] ++ heldSTRs Crypto.toy B later ++ H).map fun x => x.core.signature) ∧
    SigBinding Crypto.toy (Crypto.toy.signPub [1]) (heldSTRs Crypto.toy A [] ++ heldSTRs Crypto.toy B later ++ H) ∧
    ShapedProof m₁ ∧ ShapedProof m₂ ∧ (∀ pol, A.aud.verified.policies = some pol → VrfAgree Crypto.toy pol.vrfPublicKey [0x61] m₁ m₂) ∧
    NoCollision Crypto.toy.hash (proofInputs Crypto.toy m₁ [0x61] ++ proofInputs Crypto.toy m₂ [0x61]) ∧
    treeSays m₁ = some (some [9, 9]) := by
  have key : ((dirAfter Crypto.toy 5 [1] [2] 10 [3] [4] []).bind fun x =>
      (dirAfter Crypto.toy 5 [1] [2] 10 [3] [4] toyOps).bind fun y =>
      (dirAfter Crypto.toy 5 [1] [2] 10 [3] [4] (toyOps ++ [.update])).bind fun z =>
      (newAuditLog.initHistory Crypto.toy [] (Crypto.toy.signPub [1]) ([x.1.latestSTR].map some)).bind fun l₁ =>
      (logAfter Crypto.toy l₁.1 [.audit (dirId Crypto.toy x.1.latestSTR) ⟨ReqSuccess, .history [some y.1.latestSTR]⟩]).bind fun la =>
      (logAfter Crypto.toy la [.audit (dirId Crypto.toy x.1.latestSTR) ⟨ReqSuccess, .history [some z.1.latestSTR]⟩]).bind fun lb =>
      (y.1.keyLookup Crypto.toy ⟨[0x61]⟩).bind fun m₁ =>
      (y.1.register Crypto.toy (some [5]) ⟨[0x61], [1]⟩).bind fun m₂ =>
      (z.1.keyLookup Crypto.toy ⟨[0x61]⟩).bind fun m₃ =>
      ((toyClient x.1.latestSTR).handleResponse Crypto.toy KeyLookupType m₁ [0x61] (some [9, 9])).bind fun A =>
      ((toyClient x.1.latestSTR).handleResponse Crypto.toy RegistrationType m₂.2 [0x61] none).bind fun B =>
      (clientAfter Crypto.toy B.1 [⟨KeyLookupType, m₃, [0x61], none⟩]).map fun f₂ =>
      let H := [x.1.latestSTR, y.1.latestSTR, z.1.latestSTR]
      let held := heldSTRs Crypto.toy A.1 [] ++ heldSTRs Crypto.toy B.1 [⟨KeyLookupType, m₃, [0x61], none⟩] ++ H
      let id := dirId Crypto.toy x.1.latestSTR
      decide ((l₁.2 = none ∧ A.2 = none ∧ B.2 = none ∧ x.1.latestSTR.core.epoch = 0) ∧
        (A.1.aud.verified.core.epoch = B.1.aud.verified.core.epoch ∧ f₂.aud.verified.core.epoch = 2) ∧
        (A.1.checkEquivocation Crypto.toy (la.getObservedSTRs ⟨id, 0, A.1.aud.verified.core.epoch⟩) = some none ∧
          B.1.checkEquivocation Crypto.toy (lb.getObservedSTRs ⟨id, 1, B.1.aud.verified.core.epoch⟩) = some none ∧
          f₂.checkEquivocation Crypto.toy (lb.getObservedSTRs ⟨id, 1, f₂.aud.verified.core.epoch⟩) = some none) ∧
        (lb.getObservedSTRs ⟨id, 0, 2⟩ = ⟨ReqSuccess, .history (H.map some)⟩ ∧
          lb.getObservedSTRs ⟨id, 0, 3⟩ = ⟨ErrMalformedMessage, .none⟩) ∧
        (A.1.aud.signKey = Crypto.toy.signPub [1] ∧ B.1.aud.signKey = Crypto.toy.signPub [1]) ∧
        (∀ s ∈ held, toySigned s = true ∧ Regular s) ∧
        NoCollision Crypto.toy.hash (held.map fun s => s.core.signature) ∧
        (∀ a ∈ held, ∀ b ∈ held, a.core.signature = b.core.signature → a.serialize = b.serialize) ∧
        (shapedB m₁ = true ∧ shapedB m₂.2 = true) ∧
        NoCollision Crypto.toy.hash (proofInputs Crypto.toy m₁ [0x61] ++ proofInputs Crypto.toy m₂.2 [0x61]) ∧
        treeSays m₁ = some (some [9, 9]))) = some true := by
    rw [dirAfterE_eq, dirAfterE_eq, dirAfterE_eq]; simp only [registerE_eq]; decide +kernel
  obtain ⟨x, _, key⟩ := Option.bind_eq_some_iff.mp key
  obtain ⟨y, _, key⟩ := Option.bind_eq_some_iff.mp key
  obtain ⟨z, _, key⟩ := Option.bind_eq_some_iff.mp key
  obtain ⟨⟨l₁, e₁⟩, g1, key⟩ := Option.bind_eq_some_iff.mp key
  obtain ⟨la, g2, key⟩ := Option.bind_eq_some_iff.mp key
  obtain ⟨lb, g3, key⟩ := Option.bind_eq_some_iff.mp key
  obtain ⟨m₁, _, key⟩ := Option.bind_eq_some_iff.mp key
  obtain ⟨m₂, _, key⟩ := Option.bind_eq_some_iff.mp key
  obtain ⟨m₃, _, key⟩ := Option.bind_eq_some_iff.mp key
  obtain ⟨⟨A, e₂⟩, g4, key⟩ := Option.bind_eq_some_iff.mp key
  obtain ⟨⟨B, e₃⟩, g5, key⟩ := Option.bind_eq_some_iff.mp key
  obtain ⟨f₂, g6, key⟩ := Option.map_eq_some_iff.mp key
  obtain ⟨⟨rfl, rfl, rfl, k0⟩, ⟨k1, k2⟩, ⟨k3, k4, k5⟩, ⟨k6, k7⟩, ⟨k8, k9⟩, k10, k11, k12, ⟨k13, k14⟩, k15, k16⟩ := of_decide_eq_true key
  have hsm : [x.1.latestSTR].length + strsFor (dirId Crypto.toy x.1.latestSTR)
      ([.audit (dirId Crypto.toy x.1.latestSTR) ⟨ReqSuccess, .history [some y.1.latestSTR]⟩] ++
        [.audit (dirId Crypto.toy x.1.latestSTR) ⟨ReqSuccess, .history [some z.1.latestSTR]⟩]) < 2 ^ 64 := by
    simp [strsFor]
  obtain ⟨_, Hb, _, _, _, _, _, _, _, rb⟩ := C42_append_only Crypto.toy newAuditLog l₁ [] (Crypto.toy.signPub [1]) x.1.latestSTR [x.1.latestSTR]
    rfl k0 (chain_single _ _ _) g1 _ _ hsm la lb g2 g3
  have hH := reports_are rb _ 2 rfl (by decide) k6 k7
  subst hH
  exact ⟨_, l₁, la, lb, _, _, _, _, A, B, f₂, m₁, m₂.2, _, _, k0, g1, hsm, g2, g3, g4, g5, k1, g6, k2, k3, k4, k5, rb, rfl, k8, k9,
    fun s hs => ⟨signed_of_toySigned (k10 s hs).1, (k10 s hs).2⟩, k11, fun a ha b hb e _ _ => k12 a ha b hb e, shaped_of k13, shaped_of k14,
    fun _ _ => toy_vrfAgree _ _ _ _, k15, k16⟩

end Coniks.Props
