import Verif.Proofs.Users
import Verif.Props.Directory
import Verif.Props.Mitm
/-
C84: several users of one directory.
-/
namespace Coniks.Props
open Coniks Spec

/-- C84. Users do not disturb each other. Whatever the clients hold and however the calls interleave, what user `i` hears and what his client
becomes is exactly what happens in a session of his alone (`runSession`, the subject of C33) in which the calls of the others are just calls at
the directory; the directory ends in the same state. (He keeps his client all the time; others may join.) -/
theorem C84_isolated (C : Crypto) (pk : Bytes) (i : Nat) (ops : List UserOp) (d d' : Directory) (us us' : Nat → Client) (heard : List Heard)
    (hj : ∀ j, UserOp.join j ∈ ops → j ≠ i) (h : runUsers C pk d us ops = some (d', us', heard)) :
    runSession C d (us i) (ops.flatMap (UserOp.seenBy i)) = some (d', us' i, (heard.filter (·.user = i)).map Heard.verdict) :=
  users_isolated C pk i ops d us d' us' heard hj h

/-- C84. Users agree. At any point of the history of an honest directory, let any users, with clients in any state, call in any
order. Then every key shown in an answer about a name is one and the same: two answers about a name, to whichever users and whenever, never show
different keys, and the key shown was registered for that name by a registration that succeeded. `inj`: the names used have different VRF indices. -/
theorem C84_agreement (C : Crypto) (t0 : UInt64) (sk vk : Bytes) (size : Nat) (r₁ r₂ : Bytes) (pre : List DirOp) (pk : Bytes) (ops : List UserOp)
    (hlt : dirUpdates (pre ++ ops.flatMap UserOp.dirOps) < 2 ^ 64)
    (inj : IndexInj (fun k => (C.vrfProve vk k).1) (regNames (pre ++ ops.flatMap UserOp.dirOps) ++ userNames ops))
    (d₀ : Directory) (log₀ : List STR) (h₀ : dirAfter C t0 sk vk size r₁ r₂ pre = some (d₀, log₀))
    (us us' : Nat → Client) (d : Directory) (heard : List Heard) (h : runUsers C pk d₀ us ops = some (d, us', heard)) :
    (∀ x ∈ heard, ∀ y ∈ heard, x.name = y.name → ∀ k ∈ keysShown x.resp, ∀ k' ∈ keysShown y.resp, k = k') ∧
    ∀ x ∈ heard, ∀ k ∈ keysShown x.resp, ∃ a rnd b d₁ log₁ d₂ resp, pre ++ ops.flatMap UserOp.dirOps = a ++ .register rnd ⟨x.name, k⟩ :: b ∧
      dirAfter C t0 sk vk size r₁ r₂ a = some (d₁, log₁) ∧ d₁.register C rnd ⟨x.name, k⟩ = some (d₂, resp) ∧ resp.error = ReqSuccess := by
  have hsub : ∀ n ∈ regNames (pre ++ ops.flatMap UserOp.dirOps), n ∈ regNames (pre ++ ops.flatMap UserOp.dirOps) ++ userNames ops :=
    fun n hn => List.mem_append_left _ hn
  have hlt' := hlt
  rw [dirUpdates_append] at hlt'
  obtain ⟨A, inv, _, hl⟩ := dirAfter_inv C t0 sk vk size r₁ r₂ pre _ (fun n hn => hsub n (by rw [regNames_append]; exact List.mem_append_left _ hn))
    inj (by omega) d₀ log₀ h₀
  obtain ⟨log', A', inv', _, hA'⟩ := users_agree C pk sk vk _ inj ops d₀ us log₀ A inv
    (fun n hn => hsub n (by rw [regNames_append]; exact List.mem_append_right _ hn)) (fun n hn => List.mem_append_right _ hn)
    (by show _ + dirUpdates (ops.flatMap UserOp.dirOps) ≤ _; omega) d us' heard h
  refine ⟨fun x hx y hy e k hk k' hk' => ?_, fun x hx k hk => ?_⟩
  · have e1 := hA' x hx k hk
    rw [e, hA' y hy k' hk', Option.some.injEq] at e1
    exact e1.symm
  · obtain ⟨log₂, hrun⟩ := runUsers_dir C pk ops d₀ us d us' heard log₀ h
    have hall : dirAfter C t0 sk vk size r₁ r₂ (pre ++ ops.flatMap UserOp.dirOps) = some (d, log₂) := by
      rw [dirAfter_append, h₀, Option.bind_some]; exact hrun
    obtain ⟨A₂, inv₂, ho⟩ := merged_registered C t0 sk vk size r₁ r₂ _ inj _ hsub hlt d log₂ hall
    refine ho x.name k ?_
    obtain ⟨y, hy, hyk, hyv⟩ := inv'.cur.complete x.name k (hA' x hx k hk)
    have := (inv₂.cur.sound y hy).2.1
    rw [hyk, hyv] at this
    exact this

/-- C84. Everybody is served. Users with fresh clients, users who join later, anything else at the directory, calls in any order: if
every user keeps up (one answered call per epoch), no client crashes, and everything all users hear (who, about what, the verdict of his
client, the status, the keys shown) is what the abstract directory says: a function of the map from names to keys alone. Usual case of the VRF
as in C33_session: spread indices and usable names. -/
theorem C84_everybody_served (C : Crypto) (t0 : UInt64) (sk vk : Bytes) (size : Nat) (r₁ r₂ : Bytes) (pre : List DirOp) (ops : List UserOp)
    (hlt : dirUpdates (pre ++ ops.flatMap UserOp.dirOps) < 2 ^ 64)
    (spread : IndexSpread (fun k => (C.vrfProve vk k).1) (regNames (pre ++ ops.flatMap UserOp.dirOps) ++ userNames ops))
    (hus : ∀ n ∈ userNames ops, C.vrfUsable n = true) (hk : AllKeepUp (fun _ => 0) (absAfter pre) ops)
    (d₀ : Directory) (log₀ : List STR) (h₀ : dirAfter C t0 sk vk size r₁ r₂ pre = some (d₀, log₀))
    (us : Nat → Client) (hfresh : ∀ i, newClient d₀.latestSTR true (C.signPub sk) = some (us i))
    (d : Directory) (log : List STR) (h : dirAfter C t0 sk vk size r₁ r₂ (pre ++ ops.flatMap UserOp.dirOps) = some (d, log)) :
    ∃ us' heard, runUsers C (C.signPub sk) d₀ us ops = some (d, us', heard) ∧
      heard.map Heard.outline = usersHear (absAfter pre) ops := by
  have inj := spread_inj spread
  have hsub : ∀ n ∈ regNames (pre ++ ops.flatMap UserOp.dirOps), n ∈ regNames (pre ++ ops.flatMap UserOp.dirOps) ++ userNames ops :=
    fun n hn => List.mem_append_left _ hn
  rw [dirUpdates_append] at hlt
  rw [dirAfter_append, h₀, Option.bind_some] at h
  obtain ⟨A, inv, hA, hl⟩ := dirAfter_inv C t0 sk vk size r₁ r₂ pre _ (fun n hn => hsub n (by rw [regNames_append]; exact List.mem_append_left _ hn))
    inj (by omega) d₀ log₀ h₀
  rw [hA spread] at inv
  exact users_served C sk vk _ inj spread ops d₀ log₀ _ us (fun _ => 0) (fun i => fresh_client inv (after_policies h₀) (hfresh i))
    (fun n hn => hsub n (by rw [regNames_append]; exact List.mem_append_right _ hn)) (fun n hn => List.mem_append_right _ hn) hus hk
    (by show _ + dirUpdates (ops.flatMap UserOp.dirOps) ≤ _; omega) d log h

/-- C84. Once one user has been shown a key for a name (his own registration succeeded, or he looked it up), every answer that any user gets
about that name from then on shows exactly this key, with success or `ReqNameExisted`, and his client accepts it unless he expects another key
(then: `CheckBindingsDiffer`). Under the hypotheses of `C84_everybody_served`. -/
theorem C84_shown_once_shown_always (C : Crypto) (t0 : UInt64) (sk vk : Bytes) (size : Nat) (r₁ r₂ : Bytes) (pre : List DirOp) (ops : List UserOp)
    (hlt : dirUpdates (pre ++ ops.flatMap UserOp.dirOps) < 2 ^ 64)
    (spread : IndexSpread (fun k => (C.vrfProve vk k).1) (regNames (pre ++ ops.flatMap UserOp.dirOps) ++ userNames ops))
    (hus : ∀ n ∈ userNames ops, C.vrfUsable n = true) (hk : AllKeepUp (fun _ => 0) (absAfter pre) ops)
    (d₀ : Directory) (log₀ : List STR) (h₀ : dirAfter C t0 sk vk size r₁ r₂ pre = some (d₀, log₀))
    (us : Nat → Client) (hfresh : ∀ i, newClient d₀.latestSTR true (C.signPub sk) = some (us i))
    (us' : Nat → Client) (d : Directory) (h₁ h₂ : List Heard) (x : Heard)
    (h : runUsers C (C.signPub sk) d₀ us ops = some (d, us', h₁ ++ x :: h₂)) (k : Bytes) (hx : k ∈ keysShown x.resp) :
    ∀ y ∈ h₂, y.name = x.name → SaysKey k y.outline := by
  obtain ⟨log, hrun⟩ := runUsers_dir C (C.signPub sk) ops d₀ us d us' _ log₀ h
  obtain ⟨us₂, heard, g1, g2⟩ := C84_everybody_served C t0 sk vk size r₁ r₂ pre ops hlt spread hus hk d₀ log₀ h₀ us hfresh d log
    (by rw [dirAfter_append, h₀, Option.bind_some]; exact hrun)
  rw [h, Option.some.injEq, Prod.mk.injEq, Prod.mk.injEq] at g1
  rw [← g1.2.2, List.map_append, List.map_cons] at g2
  rw [dirUpdates_append] at hlt
  obtain ⟨A, inv, hA, _⟩ := dirAfter_inv C t0 sk vk size r₁ r₂ pre _
    (fun n hn => List.mem_append_left _ (by rw [regNames_append]; exact List.mem_append_left _ hn)) (spread_inj spread) (by omega) d₀ log₀ h₀
  rw [hA spread] at inv
  intro y hy e
  exact hear_after ops _ _ _ x.outline k inv.disj g2.symm hx y.outline (List.mem_map_of_mem hy) e

/-- Three users. Alice (0) registers, an epoch passes, Bob (1) looks her up with the right expectation and Carol (2), who joins only now, with a
wrong one; Carol wants the name for herself; Bob registers and Alice finds him before the epoch ends; Bob asks for a name nobody has. -/
def sampleUsers : List UserOp :=
  [.register 0 (some [7]) [0x61] [9, 9], .dir .update, .join 2, .lookup 1 [0x61] (some [9, 9]), .lookup 2 [0x61] (some [1]),
   .register 2 (some [6]) [0x61] [3], .register 1 (some [8]) [0x62] [5], .lookup 0 [0x62] none, .dir .update, .lookup 1 [0x63] none]

theorem sampleUsers_run : ∃ (d₀ : Directory) (log₀ : List STR) (us : Nat → Client) (d : Directory) (log : List STR), dirAfter Crypto.toy 5 [1] [2] 10 [3] [4] [.update] = some (d₀, log₀) ∧
    (∀ i, newClient d₀.latestSTR true (Crypto.toy.signPub [1]) = some (us i)) ∧
    dirAfter Crypto.toy 5 [1] [2] 10 [3] [4] ([.update] ++ sampleUsers.flatMap UserOp.dirOps) = some (d, log) := by
  have hrun : (dirAfter Crypto.toy 5 [1] [2] 10 [3] [4] ([.update] ++ sampleUsers.flatMap UserOp.dirOps)).isSome = true := by
    rw [dirAfterE_eq]; decide +kernel
  obtain ⟨⟨d, log⟩, hd⟩ := Option.isSome_iff_exists.mp hrun
  have hd' := hd
  rw [dirAfter_append] at hd'
  obtain ⟨⟨d₀, log₀⟩, h₀, _⟩ := Option.bind_eq_some_iff.mp hd'
  exact ⟨d₀, log₀, _, d, log, h₀, fun _ => rfl, hd⟩

/-- what the three hear -/
example : ∃ d₀ us d us' heard, runUsers Crypto.toy (Crypto.toy.signPub [1]) d₀ us sampleUsers = some (d, us', heard) ∧
    heard.map Heard.outline =
      [⟨0, [0x61], some [9, 9], none, ReqSuccess, [[9, 9]]⟩, ⟨1, [0x61], some [9, 9], none, ReqSuccess, [[9, 9]]⟩,
       ⟨2, [0x61], some [1], some CheckBindingsDiffer, ReqSuccess, [[9, 9]]⟩,
       ⟨2, [0x61], some [3], some CheckBindingsDiffer, ReqNameExisted, [[9, 9]]⟩, ⟨1, [0x62], some [5], none, ReqSuccess, [[5]]⟩,
       ⟨0, [0x62], none, none, ReqSuccess, [[5]]⟩, ⟨1, [0x63], none, none, ReqNameNotFound, []⟩] := by
  obtain ⟨d₀, log₀, us, d, log, h₀, hf, h⟩ := sampleUsers_run
  obtain ⟨us', heard, g1, g2⟩ := C84_everybody_served Crypto.toy 5 [1] [2] 10 [3] [4] [.update] sampleUsers (by decide) (by decide +kernel)
    (fun _ _ => rfl) (by decide +kernel) d₀ log₀ h₀ us hf d log h
  exact ⟨d₀, us, d, us', heard, g1, by rw [g2]; decide +kernel⟩

/-- `C84_isolated`, `C84_agreement` and `C84_shown_once_shown_always` apply to it: Bob's session, agreement, and all later answers about Alice -/
example : ∃ d₀ us d us' x heard, runUsers Crypto.toy (Crypto.toy.signPub [1]) d₀ us sampleUsers = some (d, us', x :: heard) ∧
    runSession Crypto.toy d₀ (us 1) (sampleUsers.flatMap (UserOp.seenBy 1)) =
      some (d, us' 1, ((x :: heard).filter (·.user = 1)).map Heard.verdict) ∧
    (∀ y ∈ heard, x.name = y.name → ∀ k ∈ keysShown x.resp, ∀ k' ∈ keysShown y.resp, k = k') ∧
    x.name = [0x61] ∧ keysShown x.resp = [[9, 9]] ∧ (∀ y ∈ heard, y.name = [0x61] → SaysKey [9, 9] y.outline) := by
  obtain ⟨d₀, log₀, us, d, log, h₀, hf, h⟩ := sampleUsers_run
  have spread : IndexSpread (fun k => (Crypto.toy.vrfProve [2] k).1)
      (regNames ([.update] ++ sampleUsers.flatMap UserOp.dirOps) ++ userNames sampleUsers) := by decide +kernel
  have hku : AllKeepUp (fun _ => 0) (absAfter [.update]) sampleUsers := by decide +kernel
  obtain ⟨us', heard, g1, g2⟩ := C84_everybody_served Crypto.toy 5 [1] [2] 10 [3] [4] [.update] sampleUsers (by decide) spread
    (fun _ _ => rfl) hku d₀ log₀ h₀ us hf d log h
  rw [show usersHear (absAfter [.update]) sampleUsers = ⟨0, [0x61], some [9, 9], none, ReqSuccess, [[9, 9]]⟩ ::
    (usersHear (absAfter [.update]) sampleUsers).tail by decide +kernel] at g2
  cases heard with
  | nil => nomatch g2
  | cons x heard =>
    rw [List.map_cons, List.cons.injEq] at g2
    have hn : x.name = [0x61] := congrArg Outline.name g2.1
    have hs : keysShown x.resp = [[9, 9]] := congrArg Outline.shown g2.1
    refine ⟨d₀, us, d, us', x, heard, g1, C84_isolated _ _ 1 _ _ _ _ _ _ (by simp [sampleUsers]) g1, ?_, hn, hs, ?_⟩
    · intro y hy
      exact (C84_agreement Crypto.toy 5 [1] [2] 10 [3] [4] [.update] _ sampleUsers (by decide) (spread_inj spread) d₀ log₀ h₀ us us' d _ g1).1
        x (List.mem_cons_self ..) y (List.mem_cons_of_mem _ hy)
    · intro y hy e
      exact C84_shown_once_shown_always Crypto.toy 5 [1] [2] 10 [3] [4] [.update] sampleUsers (by decide) spread (fun _ _ => rfl) hku d₀ log₀ h₀ us hf
        us' d [] heard x g1 [9, 9] (by rw [hs]; exact List.mem_cons_self ..) y hy (by rw [e, hn])

/-- C84, with a hostile network. Two clients, at different places and times, each cut off from the honest directory by an adversary who can do
anything but forge (`Besieged`, the hypotheses of C66). If they accept answers about the same name and believe the keys `v` and `w`
(`believes`: in the tree with a 32-byte salt, or promised), then `v = w`, and it is the key the directory has for the name. -/
theorem C84_besieged (C : Crypto) (K : VrfKeys32 C) (t0 : UInt64) (sk vk : Bytes) (size : Nat) (r₁ r₂ : Bytes) (ops : List DirOp)
    (hlt : dirUpdates ops < 2 ^ 64) (d : Directory) (log : List STR) (h : dirAfter C t0 sk vk size r₁ r₂ ops = some (d, log)) (n : Bytes)
    (spread : IndexSpreadAt 208 (fun k => (C.vrfProve vk k).1) (n :: regNames ops)) (free : EpochFree log) (msg msg' : Response)
    (b : Besieged C t0 sk vk size r₁ r₂ ops log n msg) (b' : Besieged C t0 sk vk size r₁ r₂ ops log n msg') (v w : Bytes)
    (hv : believes msg v) (hw : believes msg' w) : v = w ∧ (absAfter ops).merged n = some v := by
  have one : ∀ (msg : Response) (v : Bytes), Besieged C t0 sk vk size r₁ r₂ ops log n msg → believes msg v →
      (absAfter ops).merged n = some v := by
    intro msg v b hv
    obtain ⟨cc₀, cc, cc', t₀, calls, ty, key, ht₀, pinned, tbs, before, acc, unf⟩ := b.accepted
    obtain ⟨_, _, _, _, _, _, _, _, p1, _, p3⟩ := C66_man_in_the_middle_partial C K t0 sk vk size r₁ r₂ ops hlt d log h n spread free cc₀ cc cc' t₀ ht₀
      pinned tbs calls before ty msg key acc unf b.unforged b.vrf b.noCollision
    rcases hv with ⟨h1, h2⟩ | ⟨h1, h2, p, hp, hpv⟩
    · obtain ⟨_, v', _, _, hm, _, _, he⟩ := p1 v h1
      rw [he h2]; exact hm
    · obtain ⟨q, hq, _, hm, _⟩ := p3 h1 h2
      rw [hp, Option.some.injEq] at hq
      rw [← hpv, hq]; exact hm
  have e1 := one msg v b hv
  have e2 := one msg' w b' hw
  rw [e1, Option.some.injEq] at e2
  exact ⟨e2, e1⟩

/-- The hypotheses are met, with two clients and two different answers: the one registered alice and was promised her key, the other starts from
the first STR too and looks her up an epoch later. -/
example : ∃ (d : Directory) (log : List STR) (m₁ m₂ : Response), dirAfter Crypto.toy32 5 [1] [2] 10 [3] [4] mitmOps = some (d, log) ∧
    IndexSpreadAt 208 (fun k => (Crypto.toy32.vrfProve [2] k).1) ([0x61] :: regNames mitmOps) ∧ EpochFree log ∧
    Besieged Crypto.toy32 5 [1] [2] 10 [3] [4] mitmOps log [0x61] m₁ ∧ Besieged Crypto.toy32 5 [1] [2] 10 [3] [4] mitmOps log [0x61] m₂ ∧
    believes m₁ [9, 9] ∧ believes m₂ [9, 9] ∧ treeSays m₁ = some none ∧ treeSays m₂ = some (some [9, 9]) := by
  have key : ((dirAfter Crypto.toy32 5 [1] [2] 10 [3] [4] []).bind fun x =>
      (dirAfter Crypto.toy32 5 [1] [2] 10 [3] [4] [.register (some [5]) ⟨[0x61], [9, 9]⟩, .update]).bind fun z =>
      (x.1.step Crypto.toy32 (.register (some [5]) ⟨[0x61], [9, 9]⟩)).bind fun y =>
      (z.1.step Crypto.toy32 (.keyLookup ⟨[0x61]⟩)).bind fun w =>
      (dirAfter Crypto.toy32 5 [1] [2] 10 [3] [4] mitmOps).bind fun v =>
      y.2.bind fun m₁ => w.2.bind fun m₂ => v.2.head?.bind fun t₀ => (promised m₁).bind fun p =>
      ((⟨⟨Crypto.toy32.signPub [1], ⟨t₀.core, some t₀.ad⟩⟩, fun _ => none, true, fun _ => none⟩ : Client).handleResponse Crypto.toy32
        RegistrationType m₁ [0x61] (some [9, 9])).bind fun c =>
      ((⟨⟨Crypto.toy32.signPub [1], ⟨t₀.core, some t₀.ad⟩⟩, fun _ => none, true, fun _ => none⟩ : Client).handleResponse Crypto.toy32
        KeyLookupType m₂ [0x61] none).map fun c' =>
      decide (c.2 = none ∧ c'.2 = none ∧ EpochFree v.2 ∧
        IndexSpreadAt 208 (fun k => (Crypto.toy32.vrfProve [2] k).1) ([0x61] :: regNames mitmOps) ∧
        (∀ t ∈ v.2, (t.tree.get (Crypto.toy32.vrfProve [2] [0x61]).1).all (fun ap => decide ((∀ x ∈ nodeBytes Crypto.toy32.hash ap, ¬ ap.lookupIndex <:+: x) ∧
          NoCollision Crypto.toy32.hash (bothInputs Crypto.toy32 m₁ ap [0x61]) ∧
          NoCollision Crypto.toy32.hash (bothInputs Crypto.toy32 m₂ ap [0x61]))) = true) ∧ treeSays m₁ = some none ∧ m₁.error ≠ ReqNameNotFound ∧
          p.value = [9, 9] ∧ treeSays m₂ = some (some [9, 9]) ∧ (receivedSalt m₂).length = 32)) = some true := by
    rw [dirAfterE_eq, dirAfterE_eq, dirAfterE_eq]; simp only [stepE_eq]; decide +kernel
  obtain ⟨⟨d₀, log₀⟩, h1, key⟩ := Option.bind_eq_some_iff.mp key
  obtain ⟨⟨d₁, log₁⟩, h2, key⟩ := Option.bind_eq_some_iff.mp key
  obtain ⟨⟨e₁, o₁⟩, h3, key⟩ := Option.bind_eq_some_iff.mp key
  obtain ⟨⟨e₂, o₂⟩, h4, key⟩ := Option.bind_eq_some_iff.mp key
  obtain ⟨⟨d, log⟩, h5, key⟩ := Option.bind_eq_some_iff.mp key
  obtain ⟨m₁, h6, key⟩ := Option.bind_eq_some_iff.mp key
  obtain ⟨m₂, h7, key⟩ := Option.bind_eq_some_iff.mp key
  obtain ⟨t₀, h8, key⟩ := Option.bind_eq_some_iff.mp key
  obtain ⟨p, hp, key⟩ := Option.bind_eq_some_iff.mp key
  obtain ⟨⟨c, e⟩, h9, key⟩ := Option.bind_eq_some_iff.mp key
  obtain ⟨⟨c', e'⟩, h10, key⟩ := Option.map_eq_some_iff.mp key
  obtain ⟨k0, k1, k2, k3, k4, k5, k6, k7, k8, k9⟩ := of_decide_eq_true key
  simp only at k0 k1 h6 h7
  subst k0; subst k1; subst h6; subst h7
  have hm : t₀ ∈ log := List.mem_of_mem_head? h8
  have vrf : ∀ msg, VrfHonest Crypto.toy32 [2] [0x61] msg := by
    intro msg ap _ _ _ h
    have h : (ap.lookupIndex == toyHash (toyHash [2] ++ [0x61]) && ap.vrfProof.length == 96 && (toyHash [2]).length == 32) = true := h
    rw [Bool.and_eq_true, Bool.and_eq_true, beq_iff_eq] at h
    exact h.1.1
  refine ⟨d, log, m₁, m₂, h5, k3, k2, ⟨⟨_, _, c, t₀, [], _, _, hm, rfl, rfl, rfl, h9, fun x hx => (nomatch hx)⟩, ?_, vrf _, ?_⟩,
    ⟨⟨_, _, c', t₀, [], _, _, hm, rfl, rfl, rfl, h10, fun x hx => (nomatch hx)⟩, ?_, vrf _, ?_⟩, .inr ⟨k5, k6, p, hp, k7⟩, .inl ⟨k8, k9⟩, k5, k8⟩
  · exact C66_honest_traffic Crypto.toy32 5 [1] [2] 10 [3] [4] [] [.update, .keyLookup ⟨[0x61]⟩] _ (by decide) (.inl ⟨_, _, rfl⟩) d d₀ e₁ log log₀ h1
      m₁ h3 h5 _
  · intro t ht ap hap
    have := k4 t ht
    rw [hap] at this
    have := of_decide_eq_true this
    exact ⟨this.1, this.2.1⟩
  · exact C66_honest_traffic Crypto.toy32 5 [1] [2] 10 [3] [4] [.register (some [5]) ⟨[0x61], [9, 9]⟩, .update] [] _ (by decide) (.inr ⟨_, rfl⟩) d d₁ e₂
      log log₁ h2 m₂ h4 h5 _
  · intro t ht ap hap
    have := k4 t ht
    rw [hap] at this
    have := of_decide_eq_true this
    exact ⟨this.1, this.2.2⟩

end Coniks.Props
