import Verif.Model.Pad
/-
Histories of operations on a PAD.
-/
namespace Coniks

/-- One call on a PAD: `Set` (pad.go:106-108) with the randomness drawn, `Update` (pad.go:90-100). -/
inductive PadOp where
  | set (rnd : Option Bytes) (key value : Bytes)
  | update (ad : Option Policies)
deriving DecidableEq

/-- The effect of one call (`none` = panic). -/
def PAD.step (C : Crypto) (p : PAD) : PadOp → Go PAD
  | .set rnd key value => (p.set C rnd key value).map Prod.fst
  | .update ad => some (p.update C ad)

/-- The STR an operation issues. -/
def PadOp.issued : PadOp → PAD → List STR
  | .update _, p => [p.latest]
  | .set .., _ => []

/-- Run a history; `log` collects every STR issued so far, i.e. `LatestSTR()` after creation and after each `Update`. -/
def PAD.runLog (C : Crypto) (p : PAD) (log : List STR) : List PadOp → Go (PAD × List STR)
  | [] => some (p, log)
  | op :: ops => (p.step C op).bind fun p' => p'.runLog C (log ++ op.issued p') ops

/-- A PAD created by `NewPAD` (pad.go:36-53) and then used, with the log of its STRs. -/
def padAfter (C : Crypto) (ad : Policies) (signKey vrfKey : Bytes) (len : Nat) (rnd₁ rnd₂ : Bytes) (ops : List PadOp) :
    Go (PAD × List STR) :=
  match newPAD C ad signKey vrfKey len (some rnd₁) (some rnd₂) with
  | some (some p) => p.runLog C [p.latest] ops
  | _ => none

end Coniks
