import Verif.Spec.Trio
import Verif.Proofs.SessionExact
import Verif.Proofs.AuditLog
import Verif.Props.Directory
import Verif.Props.Auditor
/-
Directory, auditor and user together.
-/
namespace Coniks
open Spec Props

/-! ### the cache -/

theorem cacheKept_bounds (size : Nat) (h : 2 ≤ size) (n : Nat) :
    1 ≤ cacheKept size n ∧ cacheKept size n ≤ size ∧ min (n + 1) (size - size / 2 + 1) ≤ cacheKept size n ∧ cacheKept size n ≤ n + 1 := by
  induction n with
  | zero => simp only [cacheKept]; omega
  | succ n ih =>
    simp only [cacheKept]
    split <;> omega

theorem pad_kept (C : Crypto) (size : Nat) (hn : 2 ≤ size) (ops : List PadOp) : ∀ (p : PAD) (log : List STR) (k : Nat), PadInv C p log →
    p.cap = size → p.loadedEpochs.length = cacheKept size k → log.length + numUpdates ops ≤ 2 ^ 64 →
    ∀ p' log', p.runLog C log ops = some (p', log') → p'.loadedEpochs.length = cacheKept size (k + numUpdates ops) := by
  induction ops with
  | nil => intro p log k _ _ hk _ p' log' h; simp [PAD.runLog] at h; obtain ⟨rfl, rfl⟩ := h; simpa [numUpdates] using hk
  | cons op ops ih =>
    intro p log k inv hc hk hle p' log' h
    cases op with
    | set rnd key v =>
      obtain ⟨q, h1, h2, _⟩ := pad_set_spec C p log inv rnd key v
      simp only [PAD.runLog, PAD.step, h1, Option.map_some, Option.bind_some, PadOp.issued, List.append_nil] at h
      exact ih q log k h2.inv (h2.cap ▸ hc) (h2.loaded ▸ hk) hle p' log' h
    | update ad =>
      have hn1 : numUpdates (.update ad :: ops) = numUpdates ops + 1 := rfl
      rw [hn1] at hle ⊢
      have post := update_spec C p log inv (by omega) ad
      simp only [PAD.runLog, PAD.step, Option.bind_some, PadOp.issued] at h
      have hb := cacheKept_bounds size hn k
      have hlen := post.loadedLen
      obtain ⟨lo, l1, l2, l3, l4⟩ := evict_loaded inv
      rw [hk, hc] at hlen
      have hcap : (p.update C ad).cap = size := by
        rw [post.cap, hc, appendCap, l4, hk, hc]
        split <;> rw [if_pos (by omega)]
      have hk' : (p.update C ad).loadedEpochs.length = cacheKept size (k + 1) := by
        rw [hlen]
        simp only [cacheKept]
        split
        · next e => rw [e]
        · rfl
      have := ih _ _ (k + 1) post.inv hcap hk' (by simp; omega) p' log' h
      rw [this]; congr 1; omega

/-- which epochs the directory keeps -/
theorem dir_kept (C : Crypto) (t0 : UInt64) (sk vk : Bytes) (size : Nat) (hn : 2 ≤ size) (r₁ r₂ : Bytes) (ops : List DirOp)
    (hlt : dirUpdates ops < 2 ^ 64) (d : Directory) (log : List STR) (h : dirAfter C t0 sk vk size r₁ r₂ ops = some (d, log)) :
    Retrievable d.pad log (dirUpdates ops + 1 - cacheKept size (dirUpdates ops)) := by
  obtain ⟨inv, hl, _⟩ := dirAfter_padInv C t0 sk vk size r₁ r₂ ops hlt d log h
  obtain ⟨lo, r⟩ := retrievable inv
  obtain ⟨pops, p1, p2⟩ := dirAfter_pad C t0 sk vk size r₁ r₂ ops d log h
  obtain ⟨p₀, h1, i0, _, _, _, _, _, _, hc, hlen, _⟩ := newPAD_spec C (newPolicies t0 (C.vrfPub vk)) sk vk size r₁ r₂
  simp only [padAfter, h1] at p1
  have hk := pad_kept C size hn pops p₀ _ 0 i0 (by rw [hc, if_pos (by omega)]) (by rw [hlen]; rfl) (by simp; omega) _ _ p1
  have hc := r.count
  have hb := cacheKept_bounds size hn (dirUpdates ops)
  rw [hk, Nat.zero_add, p2] at hc
  have hr := r.lt
  have : lo = dirUpdates ops + 1 - cacheKept size (dirUpdates ops) := by omega
  rw [← this]; exact r

/-! ### parts of the history -/

/-- the STRs of the epochs `s .. s + n - 1` -/
def strPart (log : List STR) (s n : Nat) : List DirSTR := ((log.drop s).take n).map STR.toDir

theorem strPart_get {log : List STR} {s n j : Nat} (h : j < n) : (strPart log s n)[j]? = (log[s + j]?).map STR.toDir := by
  unfold strPart
  rw [List.getElem?_map, List.getElem?_take, if_pos h, List.getElem?_drop]

theorem strPart_length {log : List STR} {s n : Nat} (h : s + n ≤ log.length) : (strPart log s n).length = n := by
  unfold strPart; simp; omega

theorem strPart_cons {log : List STR} {s n : Nat} (h : s < log.length) : strPart log s (n + 1) = log[s].toDir :: strPart log (s + 1) n := by
  unfold strPart
  rw [List.drop_eq_getElem_cons h, List.take_succ_cons, List.map_cons]

theorem strPart_chain {C : Crypto} {p : PAD} {log : List STR} (inv : PadInv C p log) (s n : Nat) :
    Chain C (C.signPub p.signKey) (strPart log s n) := by
  intro j a b ha hb
  have hj : j + 1 < n := by
    have := (List.getElem?_eq_some_iff.mp hb).1
    unfold strPart at this
    simp at this; omega
  rw [strPart_get (by omega)] at ha
  rw [strPart_get hj] at hb
  obtain ⟨x, hx, rfl⟩ := Option.map_eq_some_iff.mp ha
  obtain ⟨y, hy, rfl⟩ := Option.map_eq_some_iff.mp hb
  exact log_successor inv hx hy

theorem strPart_take (log : List STR) (k n : Nat) : (log.take k).map STR.toDir ++ strPart log k n = (log.take (k + n)).map STR.toDir := by
  unfold strPart
  rw [List.take_add, List.map_append]

/-- an STR of another epoch than the one held and the next is refused -/
theorem check_far {C : Crypto} {p : PAD} {log : List STR} (inv : PadInv C p log) (hsm : log.length < 2 ^ 64) {a : AudState} {i j : Nat}
    {x y : STR} (hx : log[i]? = some x) (hy : log[j]? = some y) (hv : a.verified = y.toDir) (h1 : i ≠ j) (h2 : i ≠ j + 1) :
    a.checkSTRAgainstVerified C (some x.toDir) = some (some CheckBadSTR) := by
  have hi := (List.getElem?_eq_some_iff.mp hx).1
  have hj := (List.getElem?_eq_some_iff.mp hy).1
  have e1 : x.toDir.core.epoch.toNat = i := by
    rw [show x.toDir.core = x.core from rfl, inv.epoch _ _ hx, ofNat_toNat64 (by omega)]
  have e2 : a.verified.core.epoch.toNat = j := by
    rw [hv, show y.toDir.core = y.core from rfl, inv.epoch _ _ hy, ofNat_toNat64 (by omega)]
  have n1 : ¬ x.toDir.core.epoch = a.verified.core.epoch := by intro h; rw [h, e2] at e1; omega
  have n2 : ¬ x.toDir.core.epoch = a.verified.core.epoch + 1 := by
    intro h
    rw [h, UInt64.toNat_add, e2, show (1 : UInt64).toNat = 1 from rfl, Nat.mod_eq_of_lt (by omega)] at e1
    omega
  simp only [AudState.checkSTRAgainstVerified, if_neg n1, if_neg n2]

/-- the held STR and the next are accepted -/
theorem check_near {C : Crypto} {p : PAD} {log : List STR} (inv : PadInv C p log) {a : AudState} (hk : a.signKey = C.signPub p.signKey)
    {i j : Nat} {x y : STR} (hx : log[i]? = some x) (hy : log[j]? = some y) (hv : a.verified = y.toDir) (h : i = j ∨ i = j + 1) :
    a.checkSTRAgainstVerified C (some x.toDir) = some none := by
  rw [check_ok]
  refine ⟨_, rfl, ?_⟩
  rcases h with h | h
  · left
    rw [h, hy] at hx
    rw [hv, Option.some.inj hx]
  · right
    subst h
    rw [hk, hv]
    exact log_successor inv hy hx

/-! ### the auditor -/

/-- the auditor hears an honest range -/
theorem audit_honest {C : Crypto} {p : PAD} {log : List STR} (inv : PadInv C p log) (hsm : log.length < 2 ^ 64) {h : DirHistory}
    {seen s e : Nat} (H : Hist C h ((log.take (seen + 1)).map STR.toDir)) (hk : h.aud.signKey = C.signPub p.signKey)
    (hseen : seen < log.length) (hse : s ≤ e) (he : e < log.length) :
    (s = seen ∨ s = seen + 1 → ∃ h', h.audit C (newSTRHistoryRange ((strPart log s (e + 1 - s)).map some)) = some (h', none) ∧
      Hist C h' ((log.take (e + 1)).map STR.toDir) ∧ h'.aud.signKey = C.signPub p.signKey) ∧
    (s ≠ seen → s ≠ seen + 1 →
      h.audit C (newSTRHistoryRange ((strPart log s (e + 1 - s)).map some)) = some (h, some CheckBadSTR)) := by
  obtain ⟨n, hn⟩ : ∃ n, e + 1 - s = n + 1 := ⟨e - s, by omega⟩
  have hslt : s < log.length := by omega
  have hver : h.aud.verified = log[seen].toDir := by
    have := H.lastAt
    rw [List.length_map, List.length_take, show min (seen + 1) log.length - 1 = seen by omega, List.getElem?_map,
      List.getElem?_take, if_pos (by omega), List.getElem?_eq_getElem hseen] at this
    exact (Option.some.inj this).symm
  have hval : (newSTRHistoryRange ((strPart log s (n + 1)).map some)).validate = some none := by
    unfold newSTRHistoryRange Response.validate
    rw [if_neg (show ¬ errorsSet ReqSuccess = true by decide)]
    rw [strPart_cons hslt]
    simp
  have gs : log[s]? = some log[s] := List.getElem?_eq_getElem hslt
  have gv : log[seen]? = some log[seen] := List.getElem?_eq_getElem hseen
  rw [hn]
  constructor
  · intro hs
    have hok : h.aud.auditDirectory C ((strPart log s (n + 1)).map some) = some none := by
      rw [audit_ok]
      refine ⟨_, rfl, ⟨log[s].toDir, ?_, ?_⟩, by rw [hk]; exact strPart_chain inv _ _⟩
      · rw [strPart_cons hslt]; rfl
      · obtain ⟨t, h1, h2⟩ := (check_ok C h.aud _).mp (check_near inv hk gs gv hver hs)
        cases h1
        exact h2
    have key : ∀ r : List DirSTR, h.insertRange ((strPart log s (n + 1)).map some) = h.insertRange (r.map some) →
        Chain C h.aud.signKey (h.aud.verified :: r) → (log.take (seen + 1)).length + r.length ≤ log.length →
        (log.take (seen + 1)).map STR.toDir ++ r = (log.take (e + 1)).map STR.toDir →
        ∃ h', h.audit C (newSTRHistoryRange ((strPart log s (n + 1)).map some)) = some (h', none) ∧
          Hist C h' ((log.take (e + 1)).map STR.toDir) ∧ h'.aud.signKey = C.signPub p.signKey := by
      intro r h1 h2 h3 h4
      obtain ⟨h', g1, g2, g3⟩ := Hist.insertRange r H h2 (by rw [List.length_map]; omega)
      refine ⟨h', ?_, by rw [← h4]; exact g2, by rw [g3, hk]⟩
      unfold DirHistory.audit
      rw [hval]
      simp only [newSTRHistoryRange, hok, h1, g1, Option.map_some]
    rcases hs with hs | hs
    · subst hs
      refine key (strPart log (s + 1) n) ?_ ?_ ?_ ?_
      · rw [strPart_cons hslt, List.map_cons]
        show (h.updateVerifiedSTR log[s].toDir).insertRange _ = _
        rw [← hver, H.same]
      · have := @strPart_chain C p log inv s (n + 1)
        rw [strPart_cons hslt, ← hver, ← hk] at this
        exact this
      · rw [strPart_length (by omega), List.length_take]; omega
      · rw [strPart_take]; congr 2; omega
    · refine key (strPart log s (n + 1)) rfl ?_ ?_ ?_
      · have := @strPart_chain C p log inv seen (n + 2)
        rw [strPart_cons hseen, ← hver, ← hk, ← hs] at this
        exact this
      · rw [strPart_length (by omega), List.length_take]; omega
      · rw [hs, strPart_take]; congr 2; omega
  · intro h1 h2
    have hbad : h.aud.auditDirectory C ((strPart log s (n + 1)).map some) = some (some CheckBadSTR) := by
      rw [strPart_cons hslt, List.map_cons]
      simp only [AudState.auditDirectory, check_far inv hsm gs gv hver h1 h2]
    unfold DirHistory.audit
    rw [hval]
    simp only [newSTRHistoryRange, hbad]

/-! ### the user asks the auditor -/

theorem check_honest {C : Crypto} {p : PAD} {log : List STR} (inv : PadInv C p log) (hsm : log.length < 2 ^ 64) {cc : Client}
    (hk : cc.aud.signKey = C.signPub p.signKey) {u : Nat} {y : STR} (hu : log[u]? = some y) (hv : cc.aud.verified = y.toDir)
    {s e : Nat} (hse : s ≤ e) (he : e < log.length) :
    cc.checkEquivocation C ⟨ReqSuccess, .history ((strPart log s (e + 1 - s)).map some)⟩ =
      some (if e = u ∨ e = u + 1 then none else some CheckBadSTR) := by
  obtain ⟨n, hn⟩ : ∃ n, e + 1 - s = n + 1 := ⟨e - s, by omega⟩
  have hslt : s < log.length := by omega
  rw [hn]
  have hval : Response.validate ⟨ReqSuccess, .history ((strPart log s (n + 1)).map some)⟩ = some none := by
    unfold Response.validate
    rw [if_neg (show ¬ errorsSet ReqSuccess = true by decide), strPart_cons hslt]
    simp
  have hr : (if ((strPart log (s + 1) n).map some).length > 0 then
      cc.aud.verifySTRRange C (some log[s].toDir) ((strPart log (s + 1) n).map some) else some none) = some none := by
    split
    · rw [range_ok]
      refine ⟨_, rfl, ?_⟩
      have := @strPart_chain C p log inv s (n + 1)
      rw [strPart_cons hslt, ← hk] at this
      exact this
    · rfl
  have hne : strPart log s (n + 1) ≠ [] := by rw [strPart_cons hslt]; simp
  have hlast : ∀ h, ((strPart log s (n + 1)).map some).getLast h = some log[e].toDir := by
    intro h
    rw [getLast_map_some _ _ hne]
    congr 1
    have : (strPart log s (n + 1)).getLast? = some log[e].toDir := by
      rw [List.getLast?_eq_getElem?, strPart_length (by omega), strPart_get (by omega),
        show s + (n + 1 - 1) = e by omega, List.getElem?_eq_getElem he]
      rfl
    rw [List.getLast?_eq_some_getLast hne] at this
    exact Option.some.inj this
  have hcons : (strPart log s (n + 1)).map some = some log[s].toDir :: (strPart log (s + 1) n).map some := by
    rw [strPart_cons hslt, List.map_cons]
  unfold Client.checkEquivocation
  rw [hval]
  have ge : log[e]? = some log[e] := List.getElem?_eq_getElem he
  have hl2 : (some log[s].toDir :: (strPart log (s + 1) n).map some).getLast (by simp) = some log[e].toDir := by
    have := hlast (by simpa using hne)
    simp only [hcons] at this
    exact this
  simp only [hcons, hr, hl2]
  split
  · next h => exact check_near inv hk ge hu hv h
  · next h => exact check_far inv hsm ge hu hv (by omega) (by omega)

/-! ### all together -/

structure TrioInv (C : Crypto) (t0 : UInt64) (sk vk : Bytes) (size : Nat) (r₁ r₂ : Bytes) (id : Arr32) (ops : List DirOp) (T : Trio)
    (log : List STR) (B : Table) : Prop where
  after : dirAfter C t0 sk vk size r₁ r₂ ops = some (T.dir, log)
  ses : XSes C sk vk T.dir log T.user B.meet
  now : B.now = dirUpdates ops
  len : log.length = dirUpdates ops + 1
  seen : B.seen ≤ B.now
  hist : ∃ h, T.log id = some h ∧ Hist C h ((log.take (B.seen + 1)).map STR.toDir) ∧ h.aud.signKey = C.signPub sk

theorem TrioInv.user {C t0 sk vk size r₁ r₂ id ops T log B} (i : TrioInv C t0 sk vk size r₁ r₂ id ops T log B) :
    ∃ y, log[B.user]? = some y ∧ T.user.aud.verified = y.toDir := by
  obtain ⟨s, h1, h2⟩ := i.ses.holds
  have hlt := (List.getElem?_eq_some_iff.mp h1).1
  rw [List.length_reverse] at hlt
  rw [List.getElem?_reverse hlt] at h1
  refine ⟨s, ?_, h2⟩
  rw [← h1]
  unfold Table.user
  have := i.now
  have := i.len
  congr 1; omega

/-- what the relation between a step of the system and a step of the table is -/
def StepSim (C : Crypto) (t0 : UInt64) (sk vk : Bytes) (size : Nat) (r₁ r₂ : Bytes) (id : Arr32) (ops : List DirOp)
    (real : Go (List (Option ErrorCode) × Trio)) : Option (List (Option ErrorCode) × Table) → Prop
  | none => real = none
  | some (res, B') => ∃ T' log', real = some (res, T') ∧ TrioInv C t0 sk vk size r₁ r₂ id ops T' log' B'

theorem dirAfter_snoc {C : Crypto} {t0 : UInt64} {sk vk : Bytes} {size : Nat} {r₁ r₂ : Bytes} {ops : List DirOp} {d d' : Directory}
    {log : List STR} {op : DirOp} {r : Option Response} (h : dirAfter C t0 sk vk size r₁ r₂ ops = some (d, log))
    (hs : d.step C op = some (d', r)) : dirAfter C t0 sk vk size r₁ r₂ (ops ++ [op]) = some (d', log ++ op.issued d') := by
  rw [dirAfter_append, h, Option.bind_some]
  simp only [Directory.runLog, hs, Option.bind_some]

theorem kept_hist {C : Crypto} {log : List STR} {h : DirHistory} {k : Nat} (H : Hist C h ((log.take k).map STR.toDir)) (hk : k ≤ log.length)
    (l : List STR) : Hist C h (((log ++ l).take k).map STR.toDir) := by
  rw [List.take_append_of_le_length hk]; exact H

theorem trio_step {C : Crypto} {t0 : UInt64} {sk vk : Bytes} {size : Nat} (hsz : 2 ≤ size) {r₁ r₂ : Bytes} {id : Arr32}
    {ops : List DirOp} {T : Trio} {log : List STR} {B : Table} (i : TrioInv C t0 sk vk size r₁ r₂ id ops T log B) (op : TrioOp)
    (hlt : dirUpdates (ops ++ op.dirOps) + 1 < 2 ^ 64) :
    StepSim C t0 sk vk size r₁ r₂ id (ops ++ op.dirOps) (T.step C id op)
      (B.step (fun n => (C.vrfProve vk n).1) C.hash (vrfOk C vk) size op) := by
  have hlt0 : dirUpdates ops + 1 < 2 ^ 64 := by rw [dirUpdates_append] at hlt; omega
  have inv := i.ses.dir.pad
  have hsk := i.ses.dir.skEq
  have ret := dir_kept C t0 sk vk size hsz r₁ r₂ ops (by omega) T.dir log i.after
  have hb := cacheKept_bounds size hsz (dirUpdates ops)
  obtain ⟨h, hl, H, hk⟩ := i.hist
  have hnow := i.now
  have hlen := i.len
  have hseen := i.seen
  cases op with
  | ses op =>
    have hd : (TrioOp.ses op).dirOps = [op.dirOp] := rfl
    rw [hd] at hlt ⊢
    rw [dirUpdates_append] at hlt
    cases op with
    | dir op =>
      simp only [SesOp.dirOp] at hlt ⊢
      have hreal : T.step C id (.ses (.dir op)) = (T.dir.step C op).map fun x => ([], { T with dir := x.1 }) := by
        simp only [Trio.step, runSession]
        cases T.dir.step C op <;> rfl
      simp only [Table.step, hreal]
      unfold Table.dirStep
      by_cases hc : B.asksGone size op
      · rw [if_pos hc]
        show Option.map _ _ = none
        rw [Option.map_eq_none_iff, step_panics_iff inv]
        obtain ⟨r, rfl, h1, h2⟩ := hc
        unfold Table.gone at h2
        rw [hnow] at h2
        exact ⟨r, rfl, by rw [UInt64.le_iff_toNat_le]; exact h1, ret.evicted _ (by omega)⟩
      · rw [if_neg hc]
        obtain ⟨⟨d', r⟩, hs⟩ : ∃ x, T.dir.step C op = some x := by
          cases hs : T.dir.step C op with
          | some x => exact ⟨x, rfl⟩
          | none =>
            exfalso
            obtain ⟨req, rfl, h1, h2⟩ := (step_panics_iff inv op).mp hs
            apply hc
            refine ⟨req, rfl, by rw [UInt64.le_iff_toNat_le] at h1; exact h1, ?_⟩
            unfold Table.gone
            rw [hnow]
            by_cases h3 : dirUpdates ops + 1 - cacheKept size (dirUpdates ops) ≤ req.startEpoch.toNat
            · by_cases h4 : req.startEpoch.toNat < log.length
              · rw [ret.get _ h3 h4, List.getElem?_eq_getElem h4] at h2; cases h2
              · rw [PAD.getSTR, if_pos] at h2
                · cases h2
                · rw [ge_iff_le, UInt64.le_iff_toNat_le, inv.latest_toNat]; omega
            · omega
        rw [hs]
        have hi : (op.issued d').length = dirUpdates [op] := issued_length ..
        have hu : dirUpdates [op] = if op = .update then 1 else 0 := by cases op <;> rfl
        refine ⟨_, log ++ op.issued d', rfl, dirAfter_snoc i.after hs, x_dir_step i.ses op (by omega) d' r hs, ?_, ?_, ?_, ?_⟩
        · rw [dirUpdates_append, hu]
          dsimp only
          split <;> omega
        · rw [List.length_append, dirUpdates_append]; omega
        · dsimp only
          split <;> omega
        · exact ⟨h, hl, kept_hist H (by omega) _, hk⟩
    | lookup n key =>
      obtain ⟨resp, g1, g2⟩ := keyLookup_exact i.ses.dir n
      have hx := x_client i.ses i.ses.dir rfl i.ses.pol true n key _ resp g2 (lookup_answerShape _ _ n)
      have hs : T.dir.step C (.keyLookup ⟨n⟩) = some (T.dir, some resp) := by simp [Directory.step, g1]
      have ha := dirAfter_snoc i.after hs
      simp only [DirOp.issued, List.append_nil] at ha
      have hu : dirUpdates (ops ++ [.keyLookup ⟨n⟩]) = dirUpdates ops := by rw [dirUpdates_append]; rfl
      simp only [Table.step, Trio.step, runSession, g1, Option.bind_some, SesOp.dirOp]
      simp only [if_true] at hx
      generalize B.meet.hear C.hash (vrfOk C vk) B.meet.dir true n key (B.meet.dir.lookupAnswer (fun n => (C.vrfProve vk n).1) n) = m at hx
      cases m with
      | none =>
        have hx' : T.user.handleResponse C KeyLookupType resp n key = none := hx
        rw [hx']; rfl
      | some x =>
        obtain ⟨cc', k1, k2⟩ := hx
        rw [k1]
        exact ⟨_, log, rfl, ha, k2, by rw [hu]; exact hnow, by rw [hu]; exact hlen, hseen, h, hl, H, hk⟩
    | register rnd n k =>
      obtain ⟨d2, resp, g1, ginv, g2⟩ := register_exact i.ses.dir rnd n k
      have hs : T.dir.step C (.register rnd ⟨n, k⟩) = some (d2, some resp) := by simp [Directory.step, g1]
      have ha := dirAfter_snoc i.after hs
      simp only [DirOp.issued, List.append_nil] at ha
      have i1 := x_dir_step i.ses (.register rnd ⟨n, k⟩) (by show log.length + 0 ≤ _; omega) d2 _ hs
      simp only [DirOp.issued, List.append_nil, reduceCtorEq, if_false] at i1
      have hx := x_client i.ses ginv (register_keeps g1).2.2 i1.pol false n (some k) _ resp g2 (register_answerShape _ _ rnd n k)
      have hu : dirUpdates (ops ++ [.register rnd ⟨n, k⟩]) = dirUpdates ops := by rw [dirUpdates_append]; rfl
      simp only [Table.step, Trio.step, runSession, g1, Option.bind_some, SesOp.dirOp]
      simp only [Bool.false_eq_true, if_false] at hx
      generalize B.meet.hear C.hash (vrfOk C vk) (B.meet.dir.step (fun n => (C.vrfProve vk n).1) C.hash (.register rnd ⟨n, k⟩)) false n
        (some k) (B.meet.dir.registerAnswer (fun n => (C.vrfProve vk n).1) rnd n k) = m at hx
      cases m with
      | none =>
        have hx' : T.user.handleResponse C RegistrationType resp n (some k) = none := hx
        rw [hx']; rfl
      | some x =>
        obtain ⟨cc', k1, k2⟩ := hx
        rw [k1]
        exact ⟨_, log, rfl, ha, k2, by rw [hu]; exact hnow, by rw [hu]; exact hlen, hseen, h, hl, H, hk⟩
  | audit s e =>
    have hd : (TrioOp.audit s e).dirOps = [.getSTRHistory ⟨s, e⟩] := rfl
    rw [hd]
    have hu : dirUpdates (ops ++ [.getSTRHistory ⟨s, e⟩]) = dirUpdates ops := by rw [dirUpdates_append]; rfl
    obtain ⟨q1, q2, q3⟩ := history_spec inv ret ⟨s, e⟩
    simp only at q1 q2 q3
    have fin : ∀ resp, T.dir.getSTRHistory ⟨s, e⟩ = some resp → dirAfter C t0 sk vk size r₁ r₂ (ops ++ [.getSTRHistory ⟨s, e⟩]) = some (T.dir, log) := by
      intro resp hr
      have := @dirAfter_snoc C t0 sk vk size r₁ r₂ ops T.dir T.dir log (.getSTRHistory ⟨s, e⟩) (some resp) i.after
        (by simp [Directory.step, hr])
      simpa [DirOp.issued] using this
    simp only [Table.step, Trio.step]
    unfold auditSays
    by_cases h1 : B.now < s.toNat ∨ e.toNat < s.toNat
    · rw [if_pos h1]
      have hr := q1 (by omega)
      rw [hr]
      have ha : T.log.audit C id (newErrorResponse ErrMalformedMessage) = some (T.log, some ErrMalformedMessage) := by
        simp only [AuditLog.audit, hl]
        have : h.audit C (newErrorResponse ErrMalformedMessage) = some (h, some ErrMalformedMessage) := rfl
        rw [this, Option.map_some, set_self _ _ _ hl]
      simp only [Option.bind_some, ha]
      exact ⟨_, log, rfl, fin _ hr, i.ses, by rw [hu]; exact hnow, by rw [hu]; exact hlen, hseen, h, hl, H, hk⟩
    · rw [if_neg h1]
      by_cases h2 : s.toNat + cacheKept size B.now < B.now + 1
      · rw [if_pos h2]
        rw [hnow] at h2
        show Option.bind _ _ = none
        rw [q2 (by omega) (by omega)]; rfl
      · rw [if_neg h2]
        rw [hnow] at h2
        have hr := q3 (by omega) (by omega) (by omega)
        have hm : min e.toNat (log.length - 1) = min e.toNat B.now := by omega
        have hp : ((log.drop s.toNat).take (min e.toNat (log.length - 1) + 1 - s.toNat)).map (fun s => some s.toDir) =
            (strPart log s.toNat (min e.toNat B.now + 1 - s.toNat)).map some := by
          unfold strPart
          rw [hm, List.map_map]; rfl
        rw [hp] at hr
        rw [hr, Option.bind_some]
        obtain ⟨a1, a2⟩ := @audit_honest C T.dir.pad log inv (by omega) h B.seen s.toNat (min e.toNat B.now) H (by rw [hk, hsk])
          (by omega) (by omega) (by omega)
        by_cases h3 : s.toNat = B.seen ∨ s.toNat = B.seen + 1
        · rw [if_pos h3]
          obtain ⟨h', b1, b2, b3⟩ := a1 h3
          have ha : T.log.audit C id (newSTRHistoryRange ((strPart log s.toNat (min e.toNat B.now + 1 - s.toNat)).map some)) =
              some (T.log.set id h', none) := by
            simp only [AuditLog.audit, hl, b1, Option.map_some]
          rw [ha]
          refine ⟨_, log, rfl, fin _ hr, i.ses, by rw [hu]; exact hnow, by rw [hu]; exact hlen, Nat.min_le_right _ _, h', ?_, b2, by rw [b3, hsk]⟩
          simp [AuditLog.set]
        · rw [if_neg h3]
          have ha : T.log.audit C id (newSTRHistoryRange ((strPart log s.toNat (min e.toNat B.now + 1 - s.toNat)).map some)) =
              some (T.log, some CheckBadSTR) := by
            simp only [AuditLog.audit, hl, a2 (fun h => h3 (.inl h)) (fun h => h3 (.inr h)), Option.map_some, set_self _ _ _ hl]
          rw [ha]
          exact ⟨_, log, rfl, fin _ hr, i.ses, by rw [hu]; exact hnow, by rw [hu]; exact hlen, hseen, h, hl, H, hk⟩
  | check s e =>
    have hd : (TrioOp.check s e).dirOps = [] := rfl
    rw [hd, List.append_nil]
    obtain ⟨y, u1, u2⟩ := i.user
    have hrep := H.reports T.log id hl s e
    have hL : ((log.take (B.seen + 1)).map STR.toDir).length = B.seen + 1 := by simp; omega
    rw [hL] at hrep
    simp only [Table.step, Trio.step]
    unfold checkSays
    by_cases h1 : B.seen < e.toNat ∨ e.toNat < s.toNat
    · rw [if_pos h1, hrep.2 (by omega)]
      exact ⟨T, log, rfl, i⟩
    · rw [if_neg h1, hrep.1 (by omega)]
      have hp : ((((log.take (B.seen + 1)).map STR.toDir).drop s.toNat).take (e.toNat + 1 - s.toNat)).map some =
          (strPart log s.toNat (e.toNat + 1 - s.toNat)).map some := by
        unfold strPart
        rw [← List.map_drop, ← List.map_take, List.drop_take, List.take_take,
          show min (e.toNat + 1 - s.toNat) (B.seen + 1 - s.toNat) = e.toNat + 1 - s.toNat by omega]
      rw [hp, check_honest inv (by omega) (by rw [i.ses.signKey, hsk]) u1 u2 (by omega) (by omega)]
      exact ⟨T, log, rfl, i⟩
  | join =>
    have hd : TrioOp.join.dirOps = [] := rfl
    rw [hd, List.append_nil]
    refine ⟨{ T with user := { aud := newAudState (C.signPub T.dir.pad.signKey) T.dir.latestSTR, bindings := fun _ => none, useTBs := true, tbs := fun _ => none } },
      log, ?_, i.after, ⟨i.ses.dir, rfl, by rw [← hsk]; rfl, ⟨T.dir.pad.latest, ?_, rfl⟩, ?_, i.ses.pol⟩, i.now, i.len, i.seen, i.hist⟩
    · simp only [Trio.step, newClient, if_true, Option.map_some]
    · show log.reverse[0]? = some T.dir.pad.latest
      rw [List.getElem?_reverse (by omega), ← inv.latest_get]
      congr 1
    · exact fun n => ⟨rfl, fun p hp => (nomatch hp)⟩

theorem trio_run {C : Crypto} {t0 : UInt64} {sk vk : Bytes} {size : Nat} (hsz : 2 ≤ size) {r₁ r₂ : Bytes} {id : Arr32}
    (evs : List TrioOp) : ∀ {ops : List DirOp} {T : Trio} {log : List STR} {B : Table}, TrioInv C t0 sk vk size r₁ r₂ id ops T log B →
    dirUpdates (ops ++ evs.flatMap TrioOp.dirOps) + 1 < 2 ^ 64 →
    StepSim C t0 sk vk size r₁ r₂ id (ops ++ evs.flatMap TrioOp.dirOps) (T.run C id evs)
      (B.run (fun n => (C.vrfProve vk n).1) C.hash (vrfOk C vk) size evs) := by
  induction evs with
  | nil =>
    intro ops T log B i _
    simp only [List.flatMap_nil, List.append_nil, Trio.run, Table.run]
    exact ⟨T, log, rfl, i⟩
  | cons op evs ih =>
    intro ops T log B i hlt
    rw [List.flatMap_cons, ← List.append_assoc] at hlt ⊢
    have hs := trio_step hsz i op (by rw [dirUpdates_append] at hlt; omega)
    simp only [Trio.run, Table.run]
    generalize B.step (fun n => (C.vrfProve vk n).1) C.hash (vrfOk C vk) size op = m at hs ⊢
    cases m with
    | none =>
      have hs' : T.step C id op = none := hs
      rw [hs']; rfl
    | some x =>
      obtain ⟨res, B'⟩ := x
      obtain ⟨T', log', e1, i'⟩ := hs
      rw [e1, Option.bind_some, Option.bind_some]
      have hr := ih i' hlt
      dsimp only
      generalize B'.run (fun n => (C.vrfProve vk n).1) C.hash (vrfOk C vk) size evs = m at hr ⊢
      cases m with
      | none =>
        have hr' : T'.run C id evs = none := hr
        rw [hr']; rfl
      | some y =>
        obtain ⟨T'', log'', e2, i''⟩ := hr
        rw [e2]
        exact ⟨T'', log'', rfl, i''⟩

end Coniks
