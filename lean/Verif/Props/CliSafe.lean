import Verif.Proofs.CliSafe
import Verif.Props.CliExact
/-
C82 (and C37 for the command-line client): an honest server does not crash it.
-/
namespace Coniks.Props
open Coniks Spec Json

/-- C82. Nothing an honest server does and no failure of the network crashes the client, whatever the client's state is, whatever is typed
and whatever the permissions are, as long as both addresses of the configuration parse (`C64_bad_address`: otherwise they do). There is no
condition on the VRF or on the size of messages: the answers of an honest server that `HandleResponse` cannot bear (`C37`, `C25`:
two names whose indices agree in 248 bits) are longer than what the client reads. `GetSTRHistory` is excluded since it can crash the server
itself (C30). -/
theorem C82_no_crash (C : Crypto) (t0 : UInt64) (sk vk : Bytes) (size : Nat) (r₁ r₂ : Bytes) (ops : List DirOp) (d : Directory)
    (log : List STR) (h : dirAfter C t0 sk vk size r₁ r₂ ops = some (d, log)) (N : Net) (conf : CliConf)
    (ra : Bytes) (hra : ra = conf.regAddress ∧ conf.regAddress ≠ [] ∨ ra = conf.address ∧ conf.regAddress = [])
    (h1 : N.scheme ra ≠ none) (h2 : N.scheme conf.address ≠ none) (perms : Nat → Int → Bool) (cc : Client) (ts : Bool)
    (evs : List NetEvent) (hlt : dirUpdates ops + netUpdates evs < 2 ^ 64) (hg : ∀ req, NetEvent.dir (.getSTRHistory req) ∉ evs) :
    ¬ Panics (replOver C N conf perms d cc ts evs) := by
  obtain ⟨x, hx⟩ := safe_run C t0 sk vk size r₁ r₂ N conf (reg_eq hra ▸ h1) h2 perms evs ops d log cc ts h hlt hg
  rw [hx]
  exact fun h => nomatch h

/-- C82 with `C82_session`: every session comes to its end, and it is a session over a perfect network without the commands that failed. -/
theorem C82_every_session (C : Crypto) (t0 : UInt64) (sk vk : Bytes) (size : Nat) (r₁ r₂ : Bytes) (ops : List DirOp) (d : Directory)
    (log : List STR) (h : dirAfter C t0 sk vk size r₁ r₂ ops = some (d, log)) (N : Net) (conf : CliConf)
    (ra : Bytes) (hra : ra = conf.regAddress ∧ conf.regAddress ≠ [] ∨ ra = conf.address ∧ conf.regAddress = [])
    (h1 : N.scheme ra ≠ none) (h2 : N.scheme conf.address ≠ none) (perms : Nat → Int → Bool) (cc : Client) (ts : Bool)
    (evs : List NetEvent) (hlt : dirUpdates ops + netUpdates evs < 2 ^ 64) (hg : ∀ req, NetEvent.dir (.getSTRHistory req) ∉ evs) :
    ∃ d' cc' out evs' out', replOver C N conf perms d cc ts evs = some (d', cc', out) ∧ Faulty ts evs out evs' out' ∧
      repl C N conf perms d cc ts evs' = some (d', cc', out') := by
  obtain ⟨⟨d', cc', out⟩, hx⟩ := safe_run C t0 sk vk size r₁ r₂ N conf (reg_eq hra ▸ h1) h2 perms evs ops d log cc ts h hlt hg
  obtain ⟨evs', out', h3, h4⟩ := C82_session C t0 sk vk size r₁ r₂ ops d log h N conf perms cc ts evs d' cc' out hx
  exact ⟨d', cc', out, evs', out', hx, h3, h4⟩

/-- In the history with a ghost, in which a client that gets the answer without a network crashes (the example below `C33_exact`), the
command-line client does not, whether the answer comes through or is lost. -/
example (d₀ : Directory) (log₀ : List STR) (h₀ : dirAfter Crypto.deep 5 [1] [2] 10 [3] [4]
      [.register (some [1]) ⟨[0x80], [1]⟩, .register (some [1]) ⟨[0xC0], [2]⟩, .update] = some (d₀, log₀)) (cc : Client) :
    ¬ Panics (replOver Crypto.deep sampleNet ⟨[], ascii "tcp://server"⟩ (permsMap [⟨7, true⟩]) d₀ cc false
      [.line none ("lookup ".toList ++ [Char.ofNat 0]) (.carried 9000 false 9000 none),
       .line none ("lookup ".toList ++ [Char.ofNat 0]) (.carried 9000 false 300 none), .dir .update]) ∧
    command (fields ("lookup ".toList ++ [Char.ofNat 0])) = .lookup [0] :=
  ⟨C82_no_crash Crypto.deep 5 [1] [2] 10 [3] [4] _ d₀ log₀ h₀ sampleNet _ (ascii "tcp://server") (.inr ⟨rfl, rfl⟩) (fun h => nomatch h)
    (fun h => nomatch h) _ cc false _ (by decide) (by intro req h; simp at h), by rfl⟩

/-- How long an honest answer is: 65 bytes for every level of the tree on the path, so that nothing below level 126 ever reaches the
command-line client. -/
theorem C82_deep_paths_cut (C : Crypto) (cc : Client) (ap : AuthPath) (s : STR) (hs : Utf8STR s.toDir) (tb : Option TB) (e : ErrorCode)
    (he : 100 ≤ e ∧ e ≤ 106) (hd : 126 < ap.prunedTree.length) (n : Bytes) :
    cc.afterLookup C (.ok (clientRead (marshalResponse (newSingleProof ap s.toDir tb e)))) n =
      some (cc, ascii "Error: [coniks] Malformed message") := by
  have hl := answer_length ap s.toDir tb e
  refine afterLookup_bad ?_ n
  refine take_marshal _ ?_ 8192 (by omega)
  intro x hx
  simp only [Response.strs, newSingleProof, List.mem_singleton, Option.some.injEq] at hx
  rw [hx]; exact hs

end Coniks.Props
