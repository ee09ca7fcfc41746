import Verif.Model.Config
/-
Model of utils/utils.go:44-55 `WriteFile` and of the files the key server and `coniksserver init` write.
-/
namespace Coniks

/-- A file system: path to content. -/
abbrev FS := Bytes → Option Bytes

/-- What happens to the `ioutil.WriteFile` inside `WriteFile`: it cannot open the file, it stops after `n` bytes (error or crash),
it succeeds. -/
inductive WriteFault where
  | noOpen
  | short (n : Nat)
  | none
deriving DecidableEq

/-- Change one file. -/
def FS.put (fs : FS) (p : Bytes) (c : Option Bytes) : FS := fun q => if q = p then c else fs q

/-- Go's `ioutil.WriteFile`: open with O_CREATE|O_TRUNC, write, close; `true` = nil error. -/
def ioWriteFile (fs : FS) (p buf : Bytes) : WriteFault → FS × Bool
  | .noOpen => (fs, false)
  | .short n => (fs.put p (some (buf.take n)), false)
  | .none => (fs.put p (some buf), true)

/-- utils/utils.go:44-55 `WriteFile`: `env` is what other processes do to the file system between `os.Stat` and the write;
`statFails` says that `os.Stat` fails on an existing file (for example for lack of permission). `true` = nil error. -/
def writeFile (fs : FS) (p buf : Bytes) (statFails : Bool) (env : FS → FS) (fault : WriteFault) : FS × Bool :=
  if (fs p).isSome && !statFails then (fs, false) else ioWriteFile (env fs) p buf fault

/-- application/server/server.go:69-73 and application/config.go:89-100 `SaveSTR`: the server stores its initial STR; the error is
ignored. `json` is `json.Marshal`. -/
def saveInitSTR (json : DirSTR → Bytes) (fs : FS) (path : Bytes) (d : Directory) (fault : WriteFault) : FS :=
  (writeFile fs path (json d.latestSTR) false id fault).1

/-- cli/coniksserver/internal/cmd/init.go:77-92 `mkSigningKey` and 94-109 `mkVrfKey` (same shape): the private key file is written
first, and the public one only if that succeeded. `none` = the key could not be generated. -/
def mkKey (fs : FS) (privPath pubPath : Bytes) (key : Option (Bytes × Bytes)) (f₁ f₂ : WriteFault) : FS :=
  match key with
  | none => fs
  | some (sk, pk) =>
    match writeFile fs privPath sk false id f₁ with
    | (fs', false) => fs'
    | (fs', true) => (writeFile fs' pubPath pk false id f₂).1

end Coniks
