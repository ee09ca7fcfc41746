import Verif.Model.Lock
/-
Model of the server configuration and the epoch timer: application/server/config.go, application/server/server.go:40-75,
application/serverbase.go:18-31, 265-277.
-/
namespace Coniks

/-- application/server/config.go:17-31 `Config`, the fields that reach the directory, the permissions and the timer;
`policiesDeadline`, `signKey`, `vrfKey` are `conf.Policies` (application/server/policies.go:12-18). -/
structure ServerConfig where
  historyLength : Nat
  policiesDeadline : UInt64
  signKey : Bytes
  vrfKey : Bytes
  addresses : List Address
  epochDeadline : UInt64

/-- application/server/config.go:37-50 `NewConfig`: it has no parameter for `EpochDeadline`, which stays 0. -/
def newConfig (addrs : List Address) (loadedHistLen : Nat) (deadline : UInt64) (sk vk : Bytes) : ServerConfig :=
  { historyLength := loadedHistLen, policiesDeadline := deadline, signKey := sk, vrfKey := vk, addresses := addrs, epochDeadline := 0 }

/-- application/serverbase.go:18-21 `EpochTimer`: the duration in nanoseconds. -/
structure EpochTimer where
  duration : Int64
deriving DecidableEq

/-- application/serverbase.go:25-30 `NewEpochTimer`: `time.Duration(epDeadline) * time.Second` in int64 arithmetic. -/
def newEpochTimer (epDeadline : UInt64) : EpochTimer := { duration := epDeadline.toInt64 * 1000000000 }

/-- application/server/server.go:31-36 `ConiksServer`. -/
structure Server where
  perms : Nat → Int → Bool
  dir : Directory
  timer : EpochTimer

/-- application/server/server.go:40-75 `NewConiksServer` (storing the initial STR: see `Files`). -/
def newServer (C : Crypto) (conf : ServerConfig) (rnd₁ rnd₂ : Option Bytes) : Go Server :=
  (newDirectory C conf.policiesDeadline conf.vrfKey conf.signKey conf.historyLength true rnd₁ rnd₂).map fun d =>
    { perms := permsMap conf.addresses, dir := d, timer := newEpochTimer conf.epochDeadline }

/-- One round of `EpochUpdate` (application/serverbase.go:265-277) in nanoseconds: from the firing of the timer to the end of the
update (waiting for the scheduler and the lock, and the update itself), and from there to `timer.Reset`. -/
structure Round where
  late : Nat
  reset : Nat
deriving DecidableEq

/-- application/serverbase.go:265-277: the times at which the updates happen, if the timer is armed at `armed`. A timer with a
duration of zero or less fires at once. Reloading policies (server.go:130-143) does not touch the timer. -/
def updateTimes (t : EpochTimer) (armed : Int) : List Round → List Int
  | [] => []
  | r :: rs =>
    let u := armed + max 0 t.duration.toInt + r.late
    u :: updateTimes t (u + r.reset) rs

end Coniks
