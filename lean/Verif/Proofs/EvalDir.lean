import Verif.Proofs.Eval
import Verif.Model.DirectoryOps
/-
Computable twins of the directory operations (see Eval), proved equal to them. Only used to evaluate concrete examples.
-/
namespace Coniks

def PAD.setE (C : Crypto) (p : PAD) (rnd : Option Bytes) (key value : Bytes) : Go (PAD × Bool) :=
  (p.tree.setE C rnd (p.index C key) key value).map fun (t, ok) => ({ p with tree := t }, ok)

theorem padSetE_eq (C : Crypto) (p : PAD) (rnd : Option Bytes) (key value : Bytes) :
    p.set C rnd key value = p.setE C rnd key value := by
  unfold PAD.set PAD.setE; rw [setE_eq]

def Directory.registerE (C : Crypto) (d : Directory) (rnd : Option Bytes) (req : RegistrationRequest) :
    Go (Directory × Response) :=
  if req.username.length = 0 ∨ req.key.length = 0 then some (d, newErrorResponse ErrMalformedMessage)
  else
    match d.pad.lookup C req.username with
    | none => none
    | some none => some (d, newErrorResponse ErrDirectory)
    | some (some ap) =>
      match ap.found with
      | none => none
      | some true => some (d, newSingleProof ap d.latestSTR none ReqNameExisted)
      | some false =>
        match (if d.useTBs then d.tbs req.username else none) with
        | some tb => some (d, newSingleProof ap d.latestSTR (some tb) ReqNameExisted)
        | none =>
          let tb : Option TB := if d.useTBs then some (d.newTB C req.username req.key) else none
          match d.pad.setE C rnd req.username req.key with
          | none => none
          | some (pad', false) => some ({ d with pad := pad' }, newErrorResponse ErrDirectory)
          | some (pad', true) =>
            let tbs' : Bytes → Option TB := match tb with
              | some t => fun n => if n = req.username then some t else d.tbs n
              | none => d.tbs
            let d' : Directory := { d with pad := pad', tbs := tbs' }
            some (d', newSingleProof ap d'.latestSTR tb ReqSuccess)

theorem registerE_eq (C : Crypto) (d : Directory) (rnd : Option Bytes) (req : RegistrationRequest) :
    d.register C rnd req = d.registerE C rnd req := by
  unfold Directory.register Directory.registerE; simp only [padSetE_eq]; rfl

def Directory.stepE (C : Crypto) (d : Directory) : DirOp → Go (Directory × Option Response)
  | .register rnd req => (d.registerE C rnd req).map fun x => (x.1, some x.2)
  | .keyLookup req => (d.keyLookup C req).map fun r => (d, some r)
  | .keyLookupInEpoch req => (d.keyLookupInEpoch C req).map fun r => (d, some r)
  | .monitor req => (d.monitor C req).map fun r => (d, some r)
  | .getSTRHistory req => (d.getSTRHistory req).map fun r => (d, some r)
  | .update => some (d.update C, none)
  | .setPolicies t => some (d.setPolicies t, none)

theorem stepE_eq (C : Crypto) (d : Directory) (op : DirOp) : d.step C op = d.stepE C op := by
  cases op with
  | register rnd req => rw [Directory.step, Directory.stepE, registerE_eq]
  | _ => rfl

def Directory.runLogE (C : Crypto) (d : Directory) (log : List STR) : List DirOp → Go (Directory × List STR)
  | [] => some (d, log)
  | op :: ops => (d.stepE C op).bind fun x => x.1.runLogE C (log ++ op.issued x.1) ops

theorem runLogE_eq (C : Crypto) (ops : List DirOp) : ∀ (d : Directory) log, d.runLog C log ops = d.runLogE C log ops := by
  induction ops with
  | nil => intro d log; rfl
  | cons op ops ih =>
    intro d log
    rw [Directory.runLog, Directory.runLogE, stepE_eq]
    cases d.stepE C op with
    | none => rfl
    | some x => exact ih _ _

def dirAfterE (C : Crypto) (t0 : UInt64) (sk vk : Bytes) (size : Nat) (r₁ r₂ : Bytes) (ops : List DirOp) :
    Go (Directory × List STR) :=
  (newDirectory C t0 vk sk size true (some r₁) (some r₂)).bind fun d => d.runLogE C [d.pad.latest] ops

theorem dirAfterE_eq (C : Crypto) (t0 : UInt64) (sk vk : Bytes) (size : Nat) (r₁ r₂ : Bytes) (ops : List DirOp) :
    dirAfter C t0 sk vk size r₁ r₂ ops = dirAfterE C t0 sk vk size r₁ r₂ ops := by
  unfold dirAfter dirAfterE
  congr; funext d; exact runLogE_eq C ops d _

end Coniks
