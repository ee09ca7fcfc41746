import Verif.Proofs.Mitm
import Verif.Proofs.TreeVerify
import Verif.Props.Split
import Verif.Props.Directory
import Verif.Proofs.EvalDir
/-
C65, C66: what a directory's signature means, and what a man in the middle can do.
-/
namespace Coniks.Props
open Coniks Spec

/-! ### C65 -/

/-- C65, PARTIAL: an STR whose signed bytes the directory signed is an STR the directory issued, field by field. False without the
hypotheses: the fields are signed without lengths and without a tag that tells STRs from promises (`C65_promise_is_str_counterexample`,
`C05_boundary_counterexample`), so the two hashes and the VRF key must have their regular lengths and the epoch number must not be how a
signature begins. -/
theorem C65_str_partial (C : Crypto) (t0 : UInt64) (sk vk : Bytes) (size : Nat) (r₁ r₂ : Bytes) (ops : List DirOp)
    (hlt : dirUpdates ops < 2 ^ 64) (d : Directory) (log : List STR) (h : dirAfter C t0 sk vk size r₁ r₂ ops = some (d, log))
    (s : DirSTR) (p : Policies) (hp : s.policies = some p) (m sig : Bytes) (hm : s.serialize = some m)
    (signed : WasSigned C t0 sk vk size r₁ r₂ ops log m sig)
    (l₁ : s.core.treeHash.length = 32) (l₂ : s.core.previousSTRHash.length = 32) (l₃ : p.vrfPublicKey.length = (C.vrfPub vk).length)
    (free : ∀ t ∈ log, t.core.signature.take 8 ≠ ulongToBytes s.core.epoch) :
    ∃ t ∈ log, sig = t.core.signature ∧ s.core.epoch = t.core.epoch ∧ (s.core.epoch > 0 → s.core.previousEpoch = t.core.previousEpoch) ∧
      s.core.treeHash = t.core.treeHash ∧ s.core.previousSTRHash = t.core.previousSTRHash ∧ p.vrfPublicKey = C.vrfPub vk ∧
      p.epochDeadline = t.ad.epochDeadline ∧ p.version ++ p.hashID = versionString ++ hashIDString := by
  obtain ⟨inv, _, _, _⟩ := dirAfter_padInv C t0 sk vk size r₁ r₂ ops hlt d log h
  rcases signed with ⟨t, ht, rfl, rfl⟩ | ⟨strSig, n, tb, hpm, rfl, _⟩
  · obtain ⟨dl, had⟩ := dirAfter_keys C t0 sk vk size r₁ r₂ ops d log h t ht
    have hth : t.core.treeHash.length = 32 := by
      have ok := inv.snap t ht
      rw [ok.core, ok.hash]; exact pureHash_length C _ _
    have hph := dirAfter_prevHash C t0 sk vk size r₁ r₂ ops hlt d log h t ht
    obtain ⟨f1, f2, f3, f4, f5, f6⟩ := signed_fields hp hm
    have k1 : s.core.treeHash.length = t.core.treeHash.length := by rw [l₁, hth]
    have k2 : p.vrfPublicKey.length = t.ad.vrfPublicKey.length := by rw [l₃, had]; rfl
    obtain ⟨g1, g2⟩ := f6 k1 k2 (by rw [l₂, hph])
    refine ⟨t, ht, rfl, f1, f2, f4 k1, g1, ?_, f3, ?_⟩
    · rw [f5 k2, had]; rfl
    · rw [g2, had]; rfl
  · exfalso
    have pf := promise_facts hlt h hpm
    obtain ⟨t, ht, rfl⟩ := pf.str
    refine free t ht ?_
    have h8 := serialize_take8 hm
    rw [List.append_assoc, List.take_append_of_le_length (by rw [pf.len]; omega)] at h8
    exact h8

/-- C65, PARTIAL in the same way: bytes of the form of a promise that the directory signed are a promise it made, when the signature of the
STR they name has 64 bytes, the index 32, and the former does not begin like an epoch number of the log. -/
theorem C65_promise_partial (C : Crypto) (t0 : UInt64) (sk vk : Bytes) (size : Nat) (r₁ r₂ : Bytes) (ops : List DirOp)
    (hlt : dirUpdates ops < 2 ^ 64) (d : Directory) (log : List STR) (h : dirAfter C t0 sk vk size r₁ r₂ ops = some (d, log))
    (strSig idx value sig : Bytes) (l₁ : strSig.length = 64) (l₂ : idx.length = 32)
    (signed : WasSigned C t0 sk vk size r₁ r₂ ops log (strSig ++ idx ++ value) sig)
    (free : ∀ t ∈ log, strSig.take 8 ≠ ulongToBytes t.core.epoch) :
    ∃ n, PromiseMade C t0 sk vk size r₁ r₂ ops strSig n ⟨idx, value, sig⟩ ∧ idx = (C.vrfProve vk n).1 := by
  rcases signed with ⟨t, ht, hm, rfl⟩ | ⟨strSig', n, tb, hpm, hm, rfl⟩
  · exfalso
    refine free t ht ?_
    have h8 := serialize_take8 (str_serialize_dir t)
    rw [← hm, List.append_assoc, List.take_append_of_le_length (by omega)] at h8
    exact h8
  · have pf := promise_facts hlt h hpm
    simp only [List.append_assoc] at hm
    obtain ⟨e1, e2⟩ := List.append_inj hm (by rw [l₁, pf.len])
    obtain ⟨e3, e4⟩ := List.append_inj e2 (by rw [l₂, pf.index, C.vrf_length])
    exact ⟨n, by rw [e1, e3, e4]; exact hpm, by rw [e3]; exact pf.index⟩

/-- C65 is false as stated: whoever registers a key of 32 bytes followed by 8 gets the directory's signature on an STR that it never issued,
with these 32 bytes as VRF key and these 8 as deadline. The epoch number is the first 8 bytes of the latest signature (any but zero). -/
theorem C65_promise_is_str_counterexample (C : Crypto) (d d' : Directory) (rnd : Option Bytes) (n vk' : Bytes) (deadline : UInt64)
    (df : DirectoryProof) (tb : TB)
    (h : d.register C rnd ⟨n, vk' ++ ulongToBytes deadline⟩ = some (d', ⟨ReqSuccess, .proof df⟩)) (htb : df.tb = some tb)
    (len : d.latestSTR.core.signature.length = 64) (nz : d.latestSTR.core.signature.take 8 ≠ ulongToBytes 0) :
    ∃ s p, s.policies = some p ∧ Signed C (C.signPub d.pad.signKey) s ∧ s.core.signature = tb.signature ∧
      s.core.treeHash.length = 32 ∧ s.core.previousSTRHash.length = 32 ∧ p.vrfPublicKey = vk' ∧ p.epochDeadline = deadline ∧
      ulongToBytes s.core.epoch = d.latestSTR.core.signature.take 8 := by
  have hr := register_success h htb
  have hi : tb.index.length = 32 := by rw [hr]; exact C.vrf_length _ _
  have hval : tb.value = vk' ++ ulongToBytes deadline := by rw [hr]; rfl
  have hsig : tb.signature = C.sign d.pad.signKey (d.latestSTR.core.signature ++ tb.index ++ tb.value) := by
    rw [hr]; simp [Directory.newTB, PAD.sign]
  generalize d.latestSTR.core.signature = g at *
  obtain ⟨ep, hep⟩ := C02_ulong_onto (g.take 8) (by simp [len])
  obtain ⟨pe, hpe⟩ := C02_ulong_onto ((g.drop 8).take 8) (by simp [len])
  have hpos : ep > 0 := by
    by_cases hz : ep = 0
    · rw [hz] at hep; exact absurd hep.symm nz
    · exact UInt64.pos_iff_ne_zero.mpr hz
  refine ⟨⟨⟨(g.drop 16).take 32, ep, pe, g.drop 48 ++ tb.index.take 16, tb.signature⟩, some ⟨tb.index.drop 16, [], vk', deadline⟩⟩, _, rfl,
    ⟨g ++ tb.index ++ tb.value, ?_, ?_⟩, rfl, by simp [len], by simp [len, hi], rfl, rfl, hep⟩
  · simp only [DirSTR.serialize, Option.map_some, STRCore.serializeInternal, if_pos hpos, Policies.serialize, hep, hpe, List.append_nil, hval]
    have e1 : g = g.take 8 ++ ((g.drop 8).take 8 ++ ((g.drop 16).take 32 ++ g.drop 48)) := by
      rw [show g.drop 48 = (g.drop 16).drop 32 by simp, List.take_append_drop, show g.drop 16 = (g.drop 8).drop 8 by simp,
        List.take_append_drop, List.take_append_drop]
    have e2 : tb.index = tb.index.take 16 ++ tb.index.drop 16 := (List.take_append_drop _ _).symm
    conv => rhs; rw [e1, e2]
    simp only [List.append_assoc]
  · show C.verify _ _ tb.signature = true
    rw [hsig]; exact C.verify_sign _ _

/-! ### C66 -/

/-- C66, PARTIAL. A client starts from an STR of the directory; then everything it receives, any number of answers to any calls, comes from an
adversary who can do anything but forge (what verifies was signed by the directory, `Unforged`; the VRF value is the right one, `VrfHonest`; no
collision and no coincidence among the listed hash inputs). Whenever the client accepts an answer about `uname` it holds an STR of the directory's
log, number `e`, and with `M` the directory's map of that epoch: a key shown is the key in `M`, or it hangs together with it as in
`C66_shortened_key_counterexample`, which cannot be if the salt has its 32 bytes; it is the expected key if there is one; absence shown by a proof of
regular shape is absence in `M`; a promised key was promised by the directory under that STR to whoever registered the name, and is its key
since. Missing for the full claim: the proof of absence can be forged (`C66_hidden_name_counterexample`), and a key cut (above). -/
theorem C66_man_in_the_middle_partial (C : Crypto) (K : VrfKeys32 C) (t0 : UInt64) (sk vk : Bytes) (size : Nat) (r₁ r₂ : Bytes)
    (ops : List DirOp) (hlt : dirUpdates ops < 2 ^ 64) (d : Directory) (log : List STR)
    (h : dirAfter C t0 sk vk size r₁ r₂ ops = some (d, log)) (uname : Bytes)
    (spread : IndexSpreadAt 208 (fun k => (C.vrfProve vk k).1) (uname :: regNames ops)) (free : EpochFree log)
    (cc₀ cc cc' : Client) (t₀ : STR) (ht₀ : t₀ ∈ log) (pinned : cc₀.aud = ⟨C.signPub sk, ⟨t₀.core, some t₀.ad⟩⟩) (tbs : cc₀.useTBs = true)
    (calls : List ClientCall) (before : clientAfter C cc₀ calls = some cc) (ty : Int) (msg : Response) (key : Option Bytes)
    (acc : cc.handleResponse C ty msg uname key = some (cc', none))
    (unf : ∀ x ∈ calls, Unforged C (C.signPub sk) (WasSigned C t0 sk vk size r₁ r₂ ops log) x.msg)
    (unf' : Unforged C (C.signPub sk) (WasSigned C t0 sk vk size r₁ r₂ ops log) msg) (vrf : VrfHonest C vk uname msg)
    (nc : ∀ t ∈ log, ∀ ap, t.tree.get (C.vrfProve vk uname).1 = some ap →
      NoWindow C.hash ap ∧ NoCollision C.hash (bothInputs C msg ap uname)) :
    ∃ (e : Nat) (t : STR) (M : Bytes → Option Bytes), log[e]? = some t ∧ (absAfter ops).past[e]? = some M ∧
      cc'.aud.verified.core.signature = t.core.signature ∧ cc'.aud.verified.core.epoch = t.core.epoch ∧
      cc'.aud.verified.core.treeHash = t.core.treeHash ∧
      (∀ v, treeSays msg = some (some v) → (∀ k, key = some k → v = k) ∧
        ∃ v' salt, M uname = some v' ∧ (absAfter ops).merged uname = some v' ∧ salt.length = 32 ∧
          receivedSalt msg ++ uname ++ v = salt ++ uname ++ v' ∧ ((receivedSalt msg).length = 32 → v = v')) ∧
      (treeSays msg = some none → (∀ ap str tb, Carries msg ap str tb → WellShaped ap) → M uname = none) ∧
      (treeSays msg = some none → msg.error ≠ ReqNameNotFound → ∃ p, promised msg = some p ∧
        PromiseMade C t0 sk vk size r₁ r₂ ops t.core.signature uname p ∧ (absAfter ops).merged uname = some p.value ∧
        ∀ k, key = some k → p.value = k) := by
  have spread' : IndexSpread (fun k => (C.vrfProve vk k).1) (uname :: regNames ops) := by
    intro a ha b hb hab e
    refine spread a ha b hb hab ?_
    have := congrArg (List.take 208) e
    simpa [List.take_take] using this
  have inj := spread_inj spread'
  obtain ⟨A, dinv, hA, _⟩ := dirAfter_inv C t0 sk vk size r₁ r₂ ops (uname :: regNames ops) (fun _ hn => List.mem_cons_of_mem _ hn) inj hlt
    d log h
  rw [hA spread'] at dinv
  have inv := dinv.pad
  -- what the client holds
  obtain ⟨e₀, he₀⟩ := List.getElem?_of_mem ht₀
  have g₀ : Genuine log e₀ cc₀.aud.verified := by
    rw [pinned]
    exact ⟨t₀, he₀, rfl, rfl, rfl⟩
  obtain ⟨hkey, hutb, ⟨e₁, g₁⟩⟩ := genuine_calls hlt h free calls cc₀ cc before (by rw [pinned]) tbs ⟨_, g₀⟩ unf
  obtain ⟨_, _, ⟨e, g⟩⟩ := genuine_calls hlt h free [⟨ty, msg, uname, key⟩] cc cc' (by simp [clientAfter, acc]) hkey hutb ⟨_, g₁⟩
    (by intro x hx; rw [List.mem_singleton.mp hx]; exact unf')
  obtain ⟨t, ht, gs, gsig, gep⟩ := g
  have htm : t ∈ log := List.mem_of_getElem? ht
  have ok := inv.snap t htm
  obtain ⟨ap, str, tb, l, pol, car, hv, _, hpol, hvrf, hl, hin, hpr, hab⟩ := C34_acceptance C cc cc' hutb ty msg uname key acc
  rw [hv] at gs gsig gep
  have hacc : ap.verify C uname (l.value.getD []) str.core.treeHash = some (.ok ()) := by
    by_cases e : ap.lookupIndex = l.index
    · exact (hin e).1
    · exact (hab e).2 _
  obtain ⟨dl, had⟩ := dirAfter_keys C t0 sk vk size r₁ r₂ ops d log h t htm
  obtain ⟨_, _, _, f4, f5, _⟩ := signed_fields hpol gs
  have hth : str.core.treeHash = t.core.treeHash := f4 (by
    rw [verify_hash_length hacc, ok.core, ok.hash]; exact (pureHash_length C _ _).symm)
  have hvk : pol.vrfPublicKey = C.vrfPub vk := by
    have := f5 (by rw [K.verify _ _ _ _ hvrf, had]; exact (K.pub vk).symm)
    rw [this, had]; rfl
  rw [hth] at hacc
  rw [hvk] at hvrf
  have hidx := vrf ap str tb car hvrf
  have hel : e < (absAfter ops).past.length := by rw [dinv.len]; exact (List.getElem?_eq_some_iff.mp ht).1
  obtain ⟨M, hM⟩ : ∃ M, (absAfter ops).past[e]? = some M := ⟨_, List.getElem?_eq_getElem hel⟩
  have holds := dinv.snaps e t M ht hM
  have hmem : ∀ n v, M n = some v → (absAfter ops).merged n = some v := fun n v hn =>
    merged_of_committed dinv.disj (dinv.mono M (List.mem_of_getElem? hM) n v hn)
  obtain ⟨ap', pn, hget, hon⟩ := honest_leaf ok holds (ns := uname :: regNames ops) (fun n v hn => dinv.names n v (hmem n v hn)) uname (by
    intro a ha b hb
    refine spread a ?_ b ?_
    · rcases List.mem_cons.mp ha with rfl | ha; exact List.mem_cons_self ..; exact ha
    · rcases List.mem_cons.mp hb with rfl | hb; exact List.mem_cons_self ..; exact hb)
  obtain ⟨nw, nc⟩ := nc t htm ap' hget
  have hN := dirAfter_nonce C t0 sk vk size r₁ r₂ ops hlt d log h t htm
  have hsays := treeSays_of car hl
  have hopen : bothInputs C msg ap' uname = openInput ap uname (l.value.getD []) :: hashInputs C.hash ap ++
      (openInput ap' uname (pn.value.getD []) :: hashInputs C.hash ap') := by
    rw [bothInputs, proofInputs_of car hl]
    simp only [hon.leaf, Option.bind_some]
  rw [hopen] at nc
  refine ⟨e, t, M, ht, hM, by rw [hv, gsig], by rw [hv, gep], by rw [hv, hth], ?_, ?_, ?_⟩
  · intro v hs
    rw [hsays] at hs
    by_cases hi : ap.lookupIndex = l.index
    · rw [if_pos hi, Option.some.injEq, Option.some.injEq] at hs
      refine ⟨fun k hk => by rw [← hs]; exact (hin hi).2 k hk, ?_⟩
      obtain ⟨c, c', v', h1, h2, h3, h4, h5, h6⟩ := mitm_incl hon hN ap (l.value.getD []) hidx hacc l hl hi nw
        (noColl_sub nc (by
          intro x hx
          simp only [List.mem_cons, List.mem_append] at hx ⊢
          rcases hx with hx | hx | hx | hx <;> simp [hx]))
      rw [hs] at h6
      have hrs : receivedSalt msg = c.salt := by
        obtain ⟨_, _, hr⟩ := car
        simp [receivedSalt, hr, hl, h1]
      refine ⟨v', c'.salt, h4, hmem _ _ h4, h5, by rw [hrs]; exact h6, ?_⟩
      intro hl32
      rw [hrs] at hl32
      simp only [List.append_assoc] at h6
      exact (List.append_inj (List.append_inj h6 (by rw [hl32, h5])).2 rfl).2
    · rw [if_neg hi] at hs; nomatch hs
  · intro hs w
    rw [hsays] at hs
    by_cases hi : ap.lookupIndex = l.index
    · rw [if_pos hi] at hs; nomatch hs
    · exact mitm_absent hon hN ap _ hidx hacc (w _ _ _ car) l hl hi
        (noColl_sub nc (by
          intro x hx
          simp only [List.mem_cons, List.mem_append] at hx ⊢
          rcases hx with hx | hx <;> simp [hx]))
  · intro hs hne
    rw [hsays] at hs
    by_cases hi : ap.lookupIndex = l.index
    · rw [if_pos hi] at hs; nomatch hs
    obtain ⟨p, hp, hver, hpi, hpk⟩ := hpr hi hne
    obtain ⟨aps, strs, hr⟩ := car
    rw [hkey, ← hpi] at hver
    have sgn := (unf' _ str strs hr rfl).2 p hp hver
    rw [gsig] at sgn
    have hlen : t.core.signature.length = 64 := by rw [inv.sig t htm]; exact C.sign_length _ _
    obtain ⟨n, hpm, hn⟩ := C65_promise_partial C t0 sk vk size r₁ r₂ ops hlt d log h _ _ _ _ hlen
      (by rw [hpi, hidx]; exact C.vrf_length _ _) sgn (by
        intro t' ht'
        obtain ⟨e', he'⟩ := List.getElem?_of_mem ht'
        have := (List.getElem?_eq_some_iff.mp he').1
        rw [inv.epoch e' t' he']
        exact free t htm e' (by omega))
    obtain ⟨a, rnd, k, b, d₁, log₁, d₁', apx, hops, ha, hreg, hsg⟩ := hpm
    have hnm : n ∈ regNames ops := by rw [hops, regNames_append]; simp [regNames]
    have hnu : n = uname := inj n (List.mem_cons_of_mem _ hnm) uname (List.mem_cons_self ..) (by
      show (C.vrfProve vk n).1 = (C.vrfProve vk uname).1
      rw [← hn, hpi, hidx])
    subst hnu
    have hval : p.value = k := congrArg TB.value (register_success hreg rfl)
    refine ⟨p, by simp [promised, hr, hp], ⟨a, rnd, k, b, d₁, log₁, d₁', apx, hops, ha, hreg, hsg⟩, ?_, hpk⟩
    subst hops
    rw [dirUpdates_append] at hlt
    obtain ⟨A₁, A', _, hm1, inv', ext, _⟩ := after_registration C t0 sk vk size r₁ r₂ a b rnd ⟨n, k⟩ (n :: regNames (a ++ .register rnd ⟨n, k⟩ :: b))
      (fun _ hn => List.mem_cons_of_mem _ hn) inj (by rw [dirUpdates_append]; simpa [dirUpdates] using hlt) d₁ d₁' log₁ _ ha hreg rfl d log h
    obtain ⟨x, hx, hxk, hxv⟩ := inv'.cur.complete n k (ext.merged _ _ hm1)
    have := (dinv.cur.sound x hx).2.1
    rw [hxk, hxv] at this
    rw [hval]; exact this

/-- C66: honest traffic meets the hypothesis on signatures: the answers to registrations and lookups in a history contain only what the directory
signed in that history. -/
theorem C66_honest_traffic (C : Crypto) (t0 : UInt64) (sk vk : Bytes) (size : Nat) (r₁ r₂ : Bytes) (a b : List DirOp) (op : DirOp)
    (hlt : dirUpdates (a ++ op :: b) < 2 ^ 64) (hop : (∃ rnd req, op = .register rnd req) ∨ ∃ req, op = .keyLookup req)
    (d d₁ d₂ : Directory) (log log₁ : List STR) (h₁ : dirAfter C t0 sk vk size r₁ r₂ a = some (d₁, log₁)) (resp : Response)
    (hs : d₁.step C op = some (d₂, some resp)) (h : dirAfter C t0 sk vk size r₁ r₂ (a ++ op :: b) = some (d, log)) (pk : Bytes) :
    Unforged C pk (WasSigned C t0 sk vk size r₁ r₂ (a ++ op :: b) log) resp := by
  intro df s rest hr hstr
  obtain ⟨ext, rfl⟩ := dirAfter_prefix C t0 sk vk size r₁ r₂ a _ d log h d₁ log₁ h₁
  rw [dirUpdates_append] at hlt
  obtain ⟨inv, _⟩ := dirAfter_padInv C t0 sk vk size r₁ r₂ a (by omega) d₁ log₁ h₁
  have h₂ : dirAfter C t0 sk vk size r₁ r₂ (a ++ [op]) = some (d₂, log₁ ++ op.issued d₂) := by
    rw [dirAfter_append, h₁]
    simp [Directory.runLog, hs]
  have main : d₂.pad.latest = d₁.pad.latest ∧ ∃ n, df.str = [some d₁.latestSTR] ∧ ∀ tb, df.tb = some tb → d₂.tbs n = some tb := by
    rcases hop with ⟨rnd, req, rfl⟩ | ⟨req, rfl⟩
    · obtain ⟨⟨d3, resp'⟩, h5, h6⟩ := Option.map_eq_some_iff.mp hs
      simp only [Prod.mk.injEq, Option.some.injEq] at h6
      obtain ⟨rfl, rfl⟩ := h6
      obtain ⟨g1, g2, _⟩ := register_answer h5
      obtain ⟨_, _, g3, g4⟩ := g2 df hr
      exact ⟨g1, req.username, g3, g4⟩
    · obtain ⟨resp', h5, h6⟩ := Option.map_eq_some_iff.mp hs
      simp only [Prod.mk.injEq, Option.some.injEq] at h6
      obtain ⟨rfl, rfl⟩ := h6
      obtain ⟨_, _, g3, g4⟩ := lookup_answer h5 df hr
      exact ⟨rfl, req.username, g3, g4⟩
  obtain ⟨hl, n, hs1, hs2⟩ := main
  rw [hstr, List.cons.injEq, Option.some.injEq] at hs1
  obtain ⟨rfl, _⟩ := hs1
  refine ⟨fun m hm _ => .inl ⟨d₁.pad.latest, List.mem_append_left _ inv.latest_mem, ?_, rfl⟩, fun t ht _ => .inr ⟨_, n, t, ?_, rfl, rfl⟩⟩
  · exact (Option.some.inj hm).symm
  · have := promises_made C t0 sk vk size r₁ r₂ _ (a ++ [op]) rfl d₂ _ h₂ n t (hs2 t ht)
    rw [hl] at this
    have := promise_extend this b
    rw [List.append_assoc] at this
    exact this

/-- C66 is false as stated (1): a client that does not know the key yet accepts a part of it. If the name occurs in the key, what is in front of it
can be moved to the salt, whose length nobody checks. -/
theorem C66_shortened_key_counterexample (C : Crypto) (cc cc₁ : Client) (htb : cc.useTBs = true) (uname x y : Bytes)
    (nop : cc.tbs uname = none) (ap : AuthPath) (str : DirSTR) (tb : Option TB) (l : ProofNode) (c : Commit) (hl : ap.leaf = some l)
    (hi : ap.lookupIndex = l.index) (hc : l.commitment = some c) (hv : l.value = some (x ++ uname ++ y))
    (acc : cc.handleResponse C KeyLookupType ⟨ReqSuccess, .proof ⟨[some ap], [some str], tb⟩⟩ uname none = some (cc₁, none)) :
    let ap' := { ap with leaf := some { l with value := some y, commitment := some ⟨c.salt ++ uname ++ x, c.value⟩ } }
    let msg' : Response := ⟨ReqSuccess, .proof ⟨[some ap'], [some str], tb⟩⟩
    ∃ cc₂, cc.handleResponse C KeyLookupType msg' uname none = some (cc₂, none) ∧ treeSays msg' = some (some y) := by
  obtain ⟨ap₀, str₀, tb₀, l₀, t, pol, hcar, ck, hp, htbs, k⟩ := (C34_accept_iff C cc htb _ _ uname none cc₁).mp acc
  obtain ⟨aps, strs, hr⟩ := hcar
  simp only [DirectoryResponse.proof.injEq, DirectoryProof.mk.injEq, List.cons.injEq, Option.some.injEq] at hr
  obtain ⟨⟨rfl, rfl⟩, ⟨rfl, rfl⟩, rfl⟩ := hr
  have := ck.leaf_eq
  rw [hl, Option.some.injEq] at this
  subst this
  have ht : t = .inclusion := by rw [ck.type_eq, if_pos hi]
  intro ap' msg'
  have hpath := ck.path
  simp only [hv, Option.getD_some] at hpath
  obtain ⟨l₁, hl₁, hh, cs⟩ := verify_ok hpath
  rw [hl, Option.some.injEq] at hl₁
  subst hl₁
  have cv : c.value = C.hash (c.salt ++ uname ++ (x ++ uname ++ y)) := by
    rcases cs with ⟨_, _, c', hc', hval⟩ | ⟨ne, _⟩
    · rw [hc, Option.some.injEq] at hc'
      subst hc'
      exact hval
    · exact absurd hi ne
  have hh' : ap'.authPathHash C = some str.core.treeHash := by
    rw [← hh]
    simp [AuthPath.authPathHash, ap', hl, ProofNode.hash, hc]
  have hver : ap'.verify C uname y str.core.treeHash = some (.ok ()) := by
    have hli : ap'.lookupIndex = l.index := hi
    unfold AuthPath.verify
    simp only [hh']
    simp only [ap', hi, if_true, Option.getD_some, Crypto.commitVerify, Crypto.digest]
    simp [cv, List.append_assoc]
  refine ⟨{ cc with aud := ⟨cc.aud.signKey, str⟩, bindings := fun n => if n = uname then some none else cc.bindings n }, ?_, ?_⟩
  · refine (C34_accept_iff C cc htb _ _ uname none _).mpr ⟨ap', str, tb, _, .inclusion, pol, ⟨[], [], rfl⟩, ⟨ck.chain, rfl, ?_, ?_, ck.pol_eq, ck.vrf, ?_⟩,
      ?_, ?_, rfl, htb, fun n => rfl, fun n _ => rfl, ?_, fun _ _ => nop, fun _ h => rfl⟩
    · show _ = if ap.lookupIndex = l.index then _ else _
      rw [if_pos hi]
    · rw [← ht]; exact ck.status
    · exact hver
    · intro h; nomatch h.1
    · intro _ _ p hp; rw [nop] at hp; nomatch hp
    · intro h; nomatch h.1
  · show some (if ap.lookupIndex = l.index then _ else _) = _
    rw [if_pos hi]; rfl

theorem loop_congr (C : Crypto) {bits bits' : List Bool} (p : List Arr32) : ∀ (n : Nat) (h : Bytes), (∀ j, j < n → bits'[j]? = bits[j]?) →
    authPathLoop C bits' p n h = authPathLoop C bits p n h := by
  intro n
  induction n with
  | zero => intro h _; rfl
  | succ n ih =>
    intro h hb
    have ih' := fun x => ih x (fun j hj => hb j (by omega))
    rw [authPathLoop, authPathLoop, hb n (by omega)]
    simp only [ih']

theorem loop_bits (C : Crypto) {bits : List Bool} (p : List Arr32) : ∀ (n : Nat) (h x : Bytes), authPathLoop C bits p n h = some x →
    n ≤ bits.length := by
  intro n
  induction n with
  | zero => intro _ _ _; omega
  | succ n _ =>
    intro h x hx
    rw [authPathLoop] at hx
    by_cases hb : n < bits.length
    · omega
    · rw [List.getElem?_eq_none (by omega)] at hx; nomatch hx

/-- C66 is false as stated (2): a name that is in the tree can be hidden. From the proof of its binding one makes a proof of its absence by moving
bytes from the end of the tree nonce to the front of the index, if the new index starts with the bits of the branch; in a tree with few users some
number of bytes will do. Nothing has to be signed or found. -/
theorem C66_hidden_name_counterexample (C : Crypto) (cc cc₁ : Client) (htb : cc.useTBs = true) (uname a b : Bytes) (key : Option Bytes)
    (ap : AuthPath) (str : DirSTR) (tb : Option TB) (l : ProofNode) (hl : ap.leaf = some l) (hi : ap.lookupIndex = l.index)
    (he : l.isEmpty = false) (hn : ap.treeNonce = a ++ b) (hb : b ≠ [])
    (bits : ∀ j, j < l.level.toNat → (bitsOf (b ++ l.index))[j]? = (bitsOf l.index)[j]?)
    (acc : cc.handleResponse C KeyLookupType ⟨ReqSuccess, .proof ⟨[some ap], [some str], tb⟩⟩ uname key = some (cc₁, none)) :
    let ap' := { ap with treeNonce := a, leaf := some { l with index := b ++ l.index, value := none } }
    let msg' : Response := ⟨ReqNameNotFound, .proof ⟨[some ap'], [some str], none⟩⟩
    ∃ cc₂, cc.handleResponse C KeyLookupType msg' uname key = some (cc₂, none) ∧ treeSays msg' = some none := by
  obtain ⟨ap₀, str₀, tb₀, l₀, t, pol, hcar, ck, hp, htbs, k⟩ := (C34_accept_iff C cc htb _ _ uname key cc₁).mp acc
  obtain ⟨aps, strs, hr⟩ := hcar
  simp only [DirectoryResponse.proof.injEq, DirectoryProof.mk.injEq, List.cons.injEq, Option.some.injEq] at hr
  obtain ⟨⟨rfl, rfl⟩, ⟨rfl, rfl⟩, rfl⟩ := hr
  have := ck.leaf_eq
  rw [hl, Option.some.injEq] at this
  subst this
  intro ap' msg'
  obtain ⟨l₁, hl₁, hh, cs⟩ := verify_ok ck.path
  rw [hl, Option.some.injEq] at hl₁
  subst hl₁
  obtain ⟨c, hc⟩ : ∃ c, l.commitment = some c := by
    rcases cs with ⟨_, _, c, hc, _⟩ | ⟨ne, _⟩
    · exact ⟨c, hc⟩
    · exact absurd hi ne
  have hne : ap.lookupIndex ≠ b ++ l.index := by
    intro e
    rw [hi] at e
    have := congrArg List.length e
    rw [List.length_append] at this
    exact hb (List.eq_nil_of_length_eq_zero (by omega))
  have bits' : ∀ j, j < l.level.toNat → (toBits (b ++ l.index))[j]? = (toBits l.index)[j]? := by
    intro j hj
    rw [toBits_eq_bitsOf, toBits_eq_bitsOf]; exact bits j hj
  have hleaf : leafHash C a (b ++ l.index) l.level c.value = leafHash C ap.treeNonce l.index l.level c.value := by
    simp [leafHash, hn, Crypto.digest]
  simp only [AuthPath.authPathHash, hl, ProofNode.hash, he, hc, Bool.false_eq_true, if_false] at hh
  have hh' : ap'.authPathHash C = some str.core.treeHash := by
    simp only [AuthPath.authPathHash, ap', ProofNode.hash, he, hc, Bool.false_eq_true, if_false]
    rw [hleaf, loop_congr C _ _ _ bits']
    exact hh
  have hlev := loop_bits C _ _ _ _ hh
  have hpre : prefixLoop (toBits (b ++ l.index)) (toBits ap.lookupIndex) 0 l.level.toNat = some true := by
    have hq : ((toBits l.index).take l.level.toNat).length = l.level.toNat := by rw [List.length_take]; omega
    have := prefixLoop_prefix (a := toBits (b ++ l.index)) (b := toBits ap.lookupIndex) (q := (toBits l.index).take l.level.toNat) ?_ ?_
    · rw [hq] at this; exact this
    · refine ⟨(toBits (b ++ l.index)).drop l.level.toNat, ?_⟩
      rw [show (toBits l.index).take l.level.toNat = (toBits (b ++ l.index)).take l.level.toNat from ?_, List.take_append_drop]
      refine List.ext_getElem? fun j => ?_
      rw [List.getElem?_take, List.getElem?_take]
      split
      · next hj => exact (bits' j hj).symm
      · rfl
    · rw [hi]; exact List.take_prefix _ _
  have hver : ∀ v, ap'.verify C uname v str.core.treeHash = some (.ok ()) := by
    intro v
    unfold AuthPath.verify
    simp only [hh', if_true]
    simp only [ap']
    rw [if_neg hne, hpre]
    simp
  have hnp : ¬ Promised KeyLookupType msg'.error .absence := by
    rintro ⟨_, h | h⟩ <;> nomatch h
  refine ⟨{ cc with aud := ⟨cc.aud.signKey, str⟩, bindings := fun n => if n = uname then some none else cc.bindings n }, ?_, ?_⟩
  · refine (C34_accept_iff C cc htb _ _ uname key _).mpr ⟨ap', str, none, _, .absence, pol, ⟨[], [], rfl⟩,
      ⟨ck.chain, rfl, ?_, .inr ⟨rfl, .inl ⟨rfl, rfl⟩⟩, ck.pol_eq, ck.vrf, hver _⟩,
      fun h => absurd h hnp, (by intro _ h; nomatch h), rfl, htb, fun n => rfl, fun n _ => rfl, fun h => absurd h hnp, (by intro _ h; nomatch h),
      fun _ h => rfl⟩
    show _ = if ap.lookupIndex = b ++ l.index then _ else _
    rw [if_neg hne]
  · show some (if ap.lookupIndex = b ++ l.index then _ else _) = _
    rw [if_neg hne]

/-! ### concrete cases -/

/-- the toy instance with the length check of crypto/vrf/vrf.go:177 -/
def Crypto.toy32 : Crypto := { Crypto.toy with
  vrfVerify := fun pk m i p => i == toyHash (pk ++ m) && p.length == 96 && pk.length == 32
  vrf_complete := fun sk m _ => by
    show (toyHash (toyHash sk ++ m) == toyHash (toyHash sk ++ m) && (List.replicate 96 (0 : UInt8)).length == 96 && (toyHash sk).length == 32) = true
    simp [toyHash_length]
  vrfVerify_length := fun pk m i p h => by
    rw [Bool.and_eq_true, Bool.and_eq_true, beq_iff_eq] at h; rw [h.1.1, toyHash_length] }

theorem toy32_keys : VrfKeys32 Crypto.toy32 := by
  refine ⟨fun vk => toyHash_length vk, fun pk m i p h => ?_⟩
  have h : (i == toyHash (pk ++ m) && p.length == 96 && pk.length == 32) = true := h
  rw [Bool.and_eq_true, beq_iff_eq] at h
  exact h.2

/-- alice registers, an epoch passes, she is looked up -/
def mitmOps : List DirOp := [.register (some [5]) ⟨[0x61], [9, 9]⟩, .update, .keyLookup ⟨[0x61]⟩]

/-- the hypotheses of `C66_man_in_the_middle_partial` are met by this history, with the two answers as traffic -/
example : ∃ (d : Directory) (log : List STR) (t₀ : STR) (cc₀ cc cc' : Client) (calls : List ClientCall) (msg : Response),
    dirAfter Crypto.toy32 5 [1] [2] 10 [3] [4] mitmOps = some (d, log) ∧ t₀ ∈ log ∧
    IndexSpreadAt 208 (fun k => (Crypto.toy32.vrfProve [2] k).1) ([0x61] :: regNames mitmOps) ∧ EpochFree log ∧
    cc₀.aud = ⟨Crypto.toy32.signPub [1], ⟨t₀.core, some t₀.ad⟩⟩ ∧ cc₀.useTBs = true ∧ calls.length = 1 ∧
    clientAfter Crypto.toy32 cc₀ calls = some cc ∧ cc.handleResponse Crypto.toy32 KeyLookupType msg [0x61] (some [9, 9]) = some (cc', none) ∧
    (∀ x ∈ calls, Unforged Crypto.toy32 (Crypto.toy32.signPub [1]) (WasSigned Crypto.toy32 5 [1] [2] 10 [3] [4] mitmOps log) x.msg) ∧
    Unforged Crypto.toy32 (Crypto.toy32.signPub [1]) (WasSigned Crypto.toy32 5 [1] [2] 10 [3] [4] mitmOps log) msg ∧
    VrfHonest Crypto.toy32 [2] [0x61] msg ∧
    (∀ t ∈ log, ∀ ap, t.tree.get (Crypto.toy32.vrfProve [2] [0x61]).1 = some ap →
      NoWindow Crypto.toy32.hash ap ∧ NoCollision Crypto.toy32.hash (bothInputs Crypto.toy32 msg ap [0x61])) ∧
    treeSays msg = some (some [9, 9]) := by
  have key : ((dirAfter Crypto.toy32 5 [1] [2] 10 [3] [4] []).bind fun x =>
      (dirAfter Crypto.toy32 5 [1] [2] 10 [3] [4] [.register (some [5]) ⟨[0x61], [9, 9]⟩, .update]).bind fun z =>
      (x.1.step Crypto.toy32 (.register (some [5]) ⟨[0x61], [9, 9]⟩)).bind fun y =>
      (z.1.step Crypto.toy32 (.keyLookup ⟨[0x61]⟩)).bind fun w =>
      (dirAfter Crypto.toy32 5 [1] [2] 10 [3] [4] mitmOps).bind fun v =>
      y.2.bind fun m₁ => w.2.bind fun m₂ => v.2.head?.bind fun t₀ =>
      (clientAfter Crypto.toy32 ⟨⟨Crypto.toy32.signPub [1], ⟨t₀.core, some t₀.ad⟩⟩, fun _ => none, true, fun _ => none⟩
        [⟨RegistrationType, m₁, [0x61], some [9, 9]⟩]).bind fun c =>
      (c.handleResponse Crypto.toy32 KeyLookupType m₂ [0x61] (some [9, 9])).map fun c' =>
      decide (c'.2 = none ∧ EpochFree v.2 ∧ IndexSpreadAt 208 (fun k => (Crypto.toy32.vrfProve [2] k).1) ([0x61] :: regNames mitmOps) ∧
        (∀ t ∈ v.2, (t.tree.get (Crypto.toy32.vrfProve [2] [0x61]).1).all (fun ap => decide ((∀ x ∈ nodeBytes Crypto.toy32.hash ap, ¬ ap.lookupIndex <:+: x) ∧
          NoCollision Crypto.toy32.hash (bothInputs Crypto.toy32 m₂ ap [0x61]))) = true) ∧ treeSays m₂ = some (some [9, 9]))) = some true := by
    rw [dirAfterE_eq, dirAfterE_eq, dirAfterE_eq]; simp only [stepE_eq]; decide +kernel
  obtain ⟨⟨d₀, log₀⟩, h1, key⟩ := Option.bind_eq_some_iff.mp key
  obtain ⟨⟨d₁, log₁⟩, h2, key⟩ := Option.bind_eq_some_iff.mp key
  obtain ⟨⟨e₁, o₁⟩, h3, key⟩ := Option.bind_eq_some_iff.mp key
  obtain ⟨⟨e₂, o₂⟩, h4, key⟩ := Option.bind_eq_some_iff.mp key
  obtain ⟨⟨d, log⟩, h5, key⟩ := Option.bind_eq_some_iff.mp key
  obtain ⟨m₁, h6, key⟩ := Option.bind_eq_some_iff.mp key
  obtain ⟨m₂, h7, key⟩ := Option.bind_eq_some_iff.mp key
  obtain ⟨t₀, h8, key⟩ := Option.bind_eq_some_iff.mp key
  obtain ⟨c, h9, key⟩ := Option.bind_eq_some_iff.mp key
  obtain ⟨⟨c', e⟩, h10, key⟩ := Option.map_eq_some_iff.mp key
  obtain ⟨k1, k2, k3, k4, k5⟩ := of_decide_eq_true key
  simp only at k1 h6 h7
  subst k1; subst h6; subst h7
  have hm : t₀ ∈ log := List.mem_of_mem_head? h8
  refine ⟨d, log, t₀, _, c, c', _, m₂, h5, hm, k3, k2, rfl, rfl, rfl, h9, h10, ?_, ?_, ?_, ?_, k5⟩
  · intro x hx
    rw [List.mem_singleton.mp hx]
    exact C66_honest_traffic Crypto.toy32 5 [1] [2] 10 [3] [4] [] [.update, .keyLookup ⟨[0x61]⟩] _ (by decide) (.inl ⟨_, _, rfl⟩) d d₀ e₁ log log₀ h1
      m₁ h3 h5 _
  · exact C66_honest_traffic Crypto.toy32 5 [1] [2] 10 [3] [4] [.register (some [5]) ⟨[0x61], [9, 9]⟩, .update] [] _ (by decide) (.inr ⟨_, rfl⟩) d d₁ e₂
      log log₁ h2 m₂ h4 h5 _
  · intro ap _ _ _ h
    have h : (ap.lookupIndex == toyHash (toyHash [2] ++ [0x61]) && ap.vrfProof.length == 96 && (toyHash [2]).length == 32) = true := h
    rw [Bool.and_eq_true, Bool.and_eq_true, beq_iff_eq] at h
    exact h.1.1
  · intro t ht ap hap
    have := k4 t ht
    rw [hap] at this
    have := of_decide_eq_true this
    exact ⟨this.1, this.2⟩

/-- the hypotheses of `C65_str_partial` and `C65_promise_partial` are met by the STRs and the promise of this history -/
example : ∃ (d : Directory) (log : List STR) (t : STR), dirAfter Crypto.toy 5 [1] [2] 10 [3] [4] toyOps = some (d, log) ∧ log[1]? = some t ∧
    WasSigned Crypto.toy 5 [1] [2] 10 [3] [4] toyOps log t.serialize t.core.signature ∧ t.core.treeHash.length = 32 ∧
    t.core.previousSTRHash.length = 32 ∧ (∀ t' ∈ log, t'.core.signature.take 8 ≠ ulongToBytes t.core.epoch) := by
  have key : ((dirAfter Crypto.toy 5 [1] [2] 10 [3] [4] toyOps).bind fun x => x.2[1]?.map fun t => decide (t.core.treeHash.length = 32 ∧
      t.core.previousSTRHash.length = 32 ∧ ∀ t' ∈ x.2, t'.core.signature.take 8 ≠ ulongToBytes t.core.epoch)) = some true := by
    rw [dirAfterE_eq]; decide +kernel
  obtain ⟨⟨d, log⟩, h1, key⟩ := Option.bind_eq_some_iff.mp key
  obtain ⟨t, h2, key⟩ := Option.map_eq_some_iff.mp key
  obtain ⟨k1, k2, k3⟩ := of_decide_eq_true key
  exact ⟨d, log, t, h1, h2, .inl ⟨t, List.mem_of_getElem? h2, rfl, rfl⟩, k1, k2, k3⟩

example : ∃ (d : Directory) (log : List STR) (g : Bytes) (tb : TB), dirAfter Crypto.toy 5 [1] [2] 10 [3] [4] toyOps = some (d, log) ∧
    PromiseMade Crypto.toy 5 [1] [2] 10 [3] [4] toyOps g [0x61] tb ∧ g.length = 64 ∧ tb.index.length = 32 ∧ tb.value = [9, 9] ∧
    (∀ t ∈ log, g.take 8 ≠ ulongToBytes t.core.epoch) := by
  have key : ((dirAfter Crypto.toy 5 [1] [2] 10 [3] [4] []).bind fun x => (dirAfter Crypto.toy 5 [1] [2] 10 [3] [4] toyOps).bind fun z =>
      (x.1.register Crypto.toy (some [5]) ⟨[0x61], [9, 9]⟩).bind fun y => match y.2 with
        | ⟨_, .proof ⟨[some _], [some s], some tb⟩⟩ => some (decide (y.2.error = ReqSuccess ∧ s = x.1.latestSTR ∧ s.core.signature.length = 64 ∧
            tb.index.length = 32 ∧ tb.value = [9, 9] ∧ ∀ t ∈ z.2, s.core.signature.take 8 ≠ ulongToBytes t.core.epoch))
        | _ => none) = some true := by
    rw [dirAfterE_eq, dirAfterE_eq]; simp only [registerE_eq]; decide +kernel
  obtain ⟨⟨d₀, log₀⟩, h1, key⟩ := Option.bind_eq_some_iff.mp key
  obtain ⟨⟨d, log⟩, h2, key⟩ := Option.bind_eq_some_iff.mp key
  obtain ⟨⟨d₁, r⟩, h3, key⟩ := Option.bind_eq_some_iff.mp key
  split at key
  · next e ap s tb hr =>
    simp only at hr
    obtain ⟨k1, k2, k3, k4, k5, k6⟩ := of_decide_eq_true (Option.some.inj key)
    simp only at k1 k6
    subst hr
    simp only at k1
    subst k1; subst k2
    exact ⟨d, log, d₀.latestSTR.core.signature, tb, h2, ⟨[], some [5], [9, 9], [.update], d₀, log₀, d₁, ap, rfl, h1, h3, rfl⟩, k3, k4, k5, k6⟩
  · nomatch key

/-- the hypotheses of `C65_promise_is_str_counterexample` are met: the new STR has the key 7...7 and the deadline 9 -/
example : ∃ (d d' : Directory) (log : List STR) (df : DirectoryProof) (tb : TB), dirAfter Crypto.toy 5 [1] [2] 10 [3] [4] [] = some (d, log) ∧
    d.register Crypto.toy (some [5]) ⟨[0x61], List.replicate 32 7 ++ ulongToBytes 9⟩ = some (d', ⟨ReqSuccess, .proof df⟩) ∧ df.tb = some tb ∧
    d.latestSTR.core.signature.length = 64 ∧ d.latestSTR.core.signature.take 8 ≠ ulongToBytes 0 := by
  have key : ((dirAfter Crypto.toy 5 [1] [2] 10 [3] [4] []).bind fun x =>
      (x.1.register Crypto.toy (some [5]) ⟨[0x61], List.replicate 32 7 ++ ulongToBytes 9⟩).bind fun y => match y.2 with
        | ⟨e, .proof df⟩ => df.tb.map fun _ => decide (e = ReqSuccess ∧ x.1.latestSTR.core.signature.length = 64 ∧
            x.1.latestSTR.core.signature.take 8 ≠ ulongToBytes 0)
        | _ => none) = some true := by
    rw [dirAfterE_eq]; simp only [registerE_eq]; decide +kernel
  obtain ⟨⟨d, log⟩, h1, key⟩ := Option.bind_eq_some_iff.mp key
  obtain ⟨⟨d', r⟩, h3, key⟩ := Option.bind_eq_some_iff.mp key
  split at key
  · next e df hr =>
    simp only at hr
    obtain ⟨tb, htb, key⟩ := Option.map_eq_some_iff.mp key
    obtain ⟨k1, k2, k3⟩ := of_decide_eq_true key
    subst hr; subst k1
    exact ⟨d, d', log, df, tb, h1, h3, htb, k2, k3⟩
  · nomatch key

/-- the hypotheses of `C66_shortened_key_counterexample` are met: alice's name is `a`, her key `xay`, and a client can be made to believe `y` -/
example : ∃ (cc cc₁ : Client) (ap : AuthPath) (str : DirSTR) (l : ProofNode) (c : Commit), cc.useTBs = true ∧ cc.tbs [0x61] = none ∧
    ap.leaf = some l ∧ ap.lookupIndex = l.index ∧ l.commitment = some c ∧ l.value = some ([0x78] ++ [0x61] ++ [0x79]) ∧
    cc.handleResponse Crypto.toy KeyLookupType ⟨ReqSuccess, .proof ⟨[some ap], [some str], none⟩⟩ [0x61] none = some (cc₁, none) := by
  have key : ((dirAfter Crypto.toy 5 [1] [2] 10 [3] [4] [.register (some [5]) ⟨[0x61], [0x78, 0x61, 0x79]⟩, .update]).bind fun x =>
      (x.1.keyLookup Crypto.toy ⟨[0x61]⟩).bind fun m => match m with
        | ⟨_, .proof ⟨[some ap], [some str], none⟩⟩ => ap.leaf.bind fun l => l.commitment.bind fun _ =>
          ((toyClient x.1.latestSTR).handleResponse Crypto.toy KeyLookupType ⟨ReqSuccess, .proof ⟨[some ap], [some str], none⟩⟩ [0x61] none).map fun c₁ =>
          decide (c₁.2 = none ∧ ap.lookupIndex = l.index ∧ l.value = some ([0x78] ++ [0x61] ++ [0x79]))
        | _ => none) = some true := by
    rw [dirAfterE_eq]; decide +kernel
  obtain ⟨⟨d, log⟩, h1, key⟩ := Option.bind_eq_some_iff.mp key
  obtain ⟨m, h2, key⟩ := Option.bind_eq_some_iff.mp key
  split at key
  · next ap str =>
    obtain ⟨l, hl, key⟩ := Option.bind_eq_some_iff.mp key
    obtain ⟨c, hc, key⟩ := Option.bind_eq_some_iff.mp key
    obtain ⟨⟨cc₁, e⟩, h3, key⟩ := Option.map_eq_some_iff.mp key
    obtain ⟨rfl, k2, k3⟩ := of_decide_eq_true key
    exact ⟨toyClient d.latestSTR, cc₁, ap, str, l, c, rfl, rfl, hl, k2, hc, k3, h3⟩
  · nomatch key

/-- the hypotheses of `C66_hidden_name_counterexample` are met: alice's binding, expected by the client, is hidden by moving four bytes -/
example : ∃ (cc cc₁ : Client) (ap : AuthPath) (str : DirSTR) (l : ProofNode) (a b : Bytes), cc.useTBs = true ∧
    ap.leaf = some l ∧ ap.lookupIndex = l.index ∧ l.isEmpty = false ∧ ap.treeNonce = a ++ b ∧ b ≠ [] ∧ 0 < l.level.toNat ∧
    (∀ j, j < l.level.toNat → (bitsOf (b ++ l.index))[j]? = (bitsOf l.index)[j]?) ∧
    cc.handleResponse Crypto.toy KeyLookupType ⟨ReqSuccess, .proof ⟨[some ap], [some str], none⟩⟩ [0x61] (some [9, 9]) = some (cc₁, none) := by
  have key : ((dirAfter Crypto.toy 5 [1] [2] 10 (List.replicate 40 3) [4] toyOps).bind fun x =>
      (x.1.keyLookup Crypto.toy ⟨[0x61]⟩).bind fun m => match m with
        | ⟨_, .proof ⟨[some ap], [some str], none⟩⟩ => ap.leaf.bind fun l =>
          ((toyClient x.1.latestSTR).handleResponse Crypto.toy KeyLookupType ⟨ReqSuccess, .proof ⟨[some ap], [some str], none⟩⟩ [0x61] (some [9, 9])).map fun c₁ =>
          decide (c₁.2 = none ∧ ap.lookupIndex = l.index ∧ l.isEmpty = false ∧ ap.treeNonce.drop 28 ≠ [] ∧ 0 < l.level.toNat ∧
            ∀ j, j < l.level.toNat → (bitsOf (ap.treeNonce.drop 28 ++ l.index))[j]? = (bitsOf l.index)[j]?)
        | _ => none) = some true := by
    rw [dirAfterE_eq]; decide +kernel
  obtain ⟨⟨d, log⟩, h1, key⟩ := Option.bind_eq_some_iff.mp key
  obtain ⟨m, h2, key⟩ := Option.bind_eq_some_iff.mp key
  split at key
  · next ap str =>
    obtain ⟨l, hl, key⟩ := Option.bind_eq_some_iff.mp key
    obtain ⟨⟨cc₁, e⟩, h3, key⟩ := Option.map_eq_some_iff.mp key
    obtain ⟨rfl, k2, k3, k4, k5, k6⟩ := of_decide_eq_true key
    exact ⟨toyClient d.latestSTR, cc₁, ap, str, l, ap.treeNonce.take 28, ap.treeNonce.drop 28, rfl, hl, k2, k3, (List.take_append_drop _ _).symm, k4, k5,
      k6, h3⟩
  · nomatch key

end Coniks.Props
