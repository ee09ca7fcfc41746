import Verif.Proofs.WireSize
import Verif.Props.CliExact
/-
C83: with keys and names of everyday size all messages fit into one read, so the theorems about the network (C62, C64, C82) need no
hypothesis about sizes.
-/
namespace Coniks.Props
open Coniks Spec Json

/-- C83. How long the answers of an honest directory are, after every history: if no registration carried a key of more than `K` bytes and
the indices of the names that were asked to be registered are equal or differ within the first `D` bits, an answer to a lookup or to a
registration has at most 131·D + 4·⌈K/3⌉ + 1290 bytes. The number of registered names does not matter. -/
theorem C83_answers (C : Crypto) (t0 : UInt64) (sk vk : Bytes) (size : Nat) (r₁ r₂ : Bytes) (ops : List DirOp)
    (hlt : dirUpdates ops < 2 ^ 64) (d : Directory) (log : List STR) (h : dirAfter C t0 sk vk size r₁ r₂ ops = some (d, log))
    (hv : VrfSizes C vk) (K D : Nat) (hD : 1 ≤ D) (hK : KeysWithin K ops)
    (hp : PartWithin D (fun n => (C.vrfProve vk n).1) (requestedNames ops)) :
    (∀ n resp, d.keyLookup C ⟨n⟩ = some resp → (marshalResponse resp).length ≤ 131 * D + 4 * ((K + 2) / 3) + 1290) ∧
    (∀ rnd n k d' resp, k.length ≤ K → d.register C rnd ⟨n, k⟩ = some (d', resp) →
      (marshalResponse resp).length ≤ 131 * D + 4 * ((K + 2) / 3) + 1290) := by
  have z := sized_after h hlt hv.1 hK hp
  exact ⟨fun n resp hr => lookup_sized z hD (hv.2 _) hr, fun rnd n k d' resp hk hr => register_sized z hD hk (hv.2 _) hr⟩

/-- C83. How long the requests are: a byte of a name takes at most six bytes in JSON. -/
theorem C83_requests (n k : Bytes) : (createKeyLookupMsg n).length ≤ 6 * n.length + 60 ∧
    (createRegistrationMsg n (some k)).length ≤ 6 * n.length + 4 * ((k.length + 2) / 3) + 60 := ⟨lookupMsg_le n, registrationMsg_le n k⟩

/-- C83. So in every session with names of our client and keys of all clients of at most 1024 bytes, and indices that part within 42 bits,
all messages between our client and the server fit. -/
theorem C83_all_fit (C : Crypto) (t0 : UInt64) (sk vk : Bytes) (size : Nat) (r₁ r₂ : Bytes) (pre : List DirOp) (ops : List SesOp)
    (hlt : dirUpdates (pre ++ ops.map SesOp.dirOp) < 2 ^ 64)
    (d₀ : Directory) (log₀ : List STR) (h₀ : dirAfter C t0 sk vk size r₁ r₂ pre = some (d₀, log₀))
    (hv : VrfSizes C vk) (hK : KeysWithin 1024 (pre ++ ops.map SesOp.dirOp)) (hN : NamesWithin 1024 ops)
    (hp : PartWithin 42 (fun n => (C.vrfProve vk n).1) (requestedNames (pre ++ ops.map SesOp.dirOp))) :
    AllFit C d₀ ops = true :=
  allFit_of (by omega) hv (by decide) (by decide) ops pre d₀ log₀ h₀ hlt hK hp hN

/-- C83 with C62: the network makes no difference to such a session. -/
theorem C83_session (C : Crypto) (t0 : UInt64) (sk vk : Bytes) (size : Nat) (r₁ r₂ : Bytes) (pre : List DirOp) (ops : List SesOp)
    (hlt : dirUpdates (pre ++ ops.map SesOp.dirOp) < 2 ^ 64)
    (d₀ : Directory) (log₀ : List STR) (h₀ : dirAfter C t0 sk vk size r₁ r₂ pre = some (d₀, log₀)) (cc : Client)
    (addrs : List Address) (a : Address) (ha : a ∈ addrs) (hreg : a.allowRegistration = true) (hnd : (addrs.map Address.ptr).Nodup)
    (hn : ∀ n ∈ ownNames ops, Utf8 n)
    (hv : VrfSizes C vk) (hK : KeysWithin 1024 (pre ++ ops.map SesOp.dirOp)) (hN : NamesWithin 1024 ops)
    (hp : PartWithin 42 (fun n => (C.vrfProve vk n).1) (requestedNames (pre ++ ops.map SesOp.dirOp))) :
    runWireSession C (permsMap addrs) a.ptr d₀ cc ops = runSession C d₀ cc ops :=
  C62_session C t0 sk vk size r₁ r₂ pre ops d₀ log₀ h₀ cc addrs a ha hreg hnd hn
    (C83_all_fit C t0 sk vk size r₁ r₂ pre ops hlt d₀ log₀ h₀ hv hK hN hp)

/-- C83 with C64: what the command-line client prints in such a session, from the index-keyed directory alone. -/
theorem C83_cli (C : Crypto) (t0 : UInt64) (sk vk : Bytes) (size : Nat) (r₁ r₂ : Bytes) (pre : List DirOp) (evs : List ReplEvent)
    (hlt : dirUpdates (pre ++ (sesOps evs).map SesOp.dirOp) < 2 ^ 64)
    (d₀ : Directory) (log₀ : List STR) (h₀ : dirAfter C t0 sk vk size r₁ r₂ pre = some (d₀, log₀))
    (e : Nat) (s : STR) (hs : log₀[e]? = some s) (cc : Client) (hcc : newClient s.toDir true (C.signPub sk) = some cc)
    (d : Directory) (log : List STR) (h : dirAfter C t0 sk vk size r₁ r₂ (pre ++ (sesOps evs).map SesOp.dirOp) = some (d, log))
    (N : Net) (conf : CliConf) (addrs : List Address) (hnd : (addrs.map Address.ptr).Nodup)
    (ra : Bytes) (hra : ra = conf.regAddress ∧ conf.regAddress ≠ [] ∨ ra = conf.address ∧ conf.regAddress = [])
    (hur : N.scheme ra = some (ascii "tcp") ∨ N.scheme ra = some (ascii "unix"))
    (hua : N.scheme conf.address = some (ascii "tcp") ∨ N.scheme conf.address = some (ascii "unix"))
    (a : Address) (ha : a ∈ addrs) (hal : a.ptr = N.listener ra) (hreg : a.allowRegistration = true)
    (b : Address) (hb : b ∈ addrs) (hbl : b.ptr = N.listener conf.address)
    (hv : VrfSizes C vk) (hK : KeysWithin 1024 (pre ++ (sesOps evs).map SesOp.dirOp)) (hN : NamesWithin 1024 (sesOps evs))
    (hp : PartWithin 42 (fun n => (C.vrfProve vk n).1) (requestedNames (pre ++ (sesOps evs).map SesOp.dirOp))) (ts : Bool) :
    (repl C N conf (permsMap addrs) d₀ cc ts evs).map (fun x => (x.1, x.2.2)) =
      (exactLines (fun n => (C.vrfProve vk n).1) C.hash (vrfOk C vk)
        ⟨exactAfter (fun n => (C.vrfProve vk n).1) C.hash pre, dirUpdates pre - e, fun _ => none⟩ ts evs).map fun v => (d, v) :=
  C64_exact C t0 sk vk size r₁ r₂ pre evs hlt d₀ log₀ h₀ e s hs cc hcc d log h N conf addrs hnd ra hra hur hua a ha hal hreg b hb hbl
    (C83_all_fit C t0 sk vk size r₁ r₂ pre (sesOps evs) hlt d₀ log₀ h₀ hv hK hN hp) ts

/-- The sample session of C62 meets the hypotheses; so it does with any key of 1000 bytes in the directory. -/
example (k : Bytes) (hk : k.length = 1000) (cc : Client) (d₀ : Directory) (log₀ : List STR) (h₀ : dirAfter Crypto.toy 5 [1] [2] 10 [3] [4]
      [.register (some [1]) ⟨[0x7a], k⟩, .update] = some (d₀, log₀)) :
    runWireSession Crypto.toy (permsMap [⟨7, true⟩]) 7 d₀ cc wireOps = runSession Crypto.toy d₀ cc wireOps :=
  C83_session Crypto.toy 5 [1] [2] 10 [3] [4] _ wireOps (by simp [wireOps, SesOp.dirOp, dirUpdates]) d₀ log₀ h₀ cc [⟨7, true⟩] ⟨7, true⟩ (by simp) rfl (by decide)
    (by
      intro n hn
      simp only [wireOps, ownNames, List.mem_cons, List.not_mem_nil, or_false, or_self] at hn
      rw [hn]; exact ⟨['a'], rfl⟩)
    ⟨by decide, fun n => by show (List.replicate 96 (0 : UInt8)).length ≤ 96; decide⟩
    (by
      intro rnd req hm
      simp only [wireOps, List.map_cons, List.map_nil, SesOp.dirOp, List.cons_append, List.nil_append, List.mem_cons, List.not_mem_nil,
        DirOp.register.injEq, reduceCtorEq, or_false, false_or] at hm
      rcases hm with ⟨_, rfl⟩ | ⟨_, rfl⟩
      · show k.length ≤ 1024; omega
      · show 2 ≤ 1024; omega)
    (by
      intro op hm
      simp only [wireOps, List.mem_cons, List.not_mem_nil, or_false] at hm
      rcases hm with rfl | rfl | rfl | rfl <;> simp)
    (by
      have hns : requestedNames ([.register (some [1]) ⟨[0x7a], k⟩, .update] ++ wireOps.map SesOp.dirOp) = [[0x7a], [0x61]] := by
        simp [requestedNames, wireOps, SesOp.dirOp]
      rw [hns]
      unfold PartWithin
      decide +kernel)

/-- The condition on the indices is about the names, not about their number: it fails for two names whose indices first differ at bit 43. -/
example : ¬ PartWithin 42 (fun n => n) [[0, 0, 0, 0, 0, 0x00], [0, 0, 0, 0, 0, 0x20]] ∧
    PartWithin 42 (fun n => n) [[0, 0, 0, 0, 0, 0x00], [0, 0, 0, 0, 0, 0x40]] := by
  unfold PartWithin; decide +kernel

end Coniks.Props
