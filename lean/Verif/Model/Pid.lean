import Verif.Model.Listen
import Verif.Model.Files
/-
The file `coniks.pid`: cli/coniksserver/internal/cmd/run.go:29-61.
-/
namespace Coniks
open Json

/-- Write to a file opened with `O_WRONLY` and without `O_TRUNC` (cli/coniksserver/internal/cmd/run.go:53, 58): what is there is overwritten from
the start; what is longer stays. -/
def overwrite (old buf : Bytes) : Bytes := buf ++ old.drop buf.length

/-- cli/coniksserver/internal/cmd/run.go:52-61 `writePID`: the content of the file afterwards. Errors are only logged. -/
def writePID (old : Option Bytes) (pid : Nat) : WriteFault → Option Bytes
  | .noOpen => old
  | .short n => some (overwrite (old.getD []) ((decNat pid).take n))
  | .none => some (overwrite (old.getD []) (decNat pid))

/-- The machine with the file `coniks.pid` of one directory (cli/coniksserver/internal/cmd/run.go:53). -/
structure Box where
  os : Os
  pidFile : Option Bytes

/-- What happens: `coniksserver run` is started in that directory, with or without `--pid` (`conf` is what `conf.Load` reads, `none` if that
fails), or something else (servers started elsewhere included). -/
inductive BoxEv where
  | run (pidFlag : Bool) (pid : Nat) (fault : WriteFault) (conf : Option (List AddressToml))
  | other (e : OsEv)

/-- cli/coniksserver/internal/cmd/run.go:29-49 `run`: first the PID file, then the configuration (`log.Fatal` if it cannot be read), then the
listeners. -/
def Box.step (M : Machine) (b : Box) : BoxEv → Box
  | .run flag pid fault conf =>
    { os := match conf with
        | none => b.os
        | some addrs => b.os.step M (.start pid addrs)
      pidFile := if flag then writePID b.pidFile pid fault else b.pidFile }
  | .other e => { b with os := b.os.step M e }

/-- A history (cli/coniksserver/internal/cmd/run.go:29-49). -/
def Box.run (M : Machine) (b : Box) (evs : List BoxEv) : Box := evs.foldl (Box.step M) b

end Coniks
