import Verif.Model.Basic
/-
Standard base64 with padding, the form in which `encoding/json` writes a `[]byte` (application/encoding.go:16, 52 for every byte
slice of the messages).
-/
namespace Coniks.Json

/-- the alphabet `A-Za-z0-9+/` -/
def b64Char (n : Nat) : UInt8 :=
  if n < 26 then UInt8.ofNat (0x41 + n)
  else if n < 52 then UInt8.ofNat (0x61 + (n - 26))
  else if n < 62 then UInt8.ofNat (0x30 + (n - 52))
  else if n = 62 then 0x2B
  else 0x2F

/-- Go `base64.StdEncoding.Encode` (application/encoding.go:16, 52). -/
def b64Enc : Bytes → Bytes
  | [] => []
  | [a] => [b64Char (a.toNat / 4), b64Char (a.toNat % 4 * 16), 0x3D, 0x3D]
  | [a, b] => [b64Char (a.toNat / 4), b64Char (a.toNat % 4 * 16 + b.toNat / 16), b64Char (b.toNat % 16 * 4), 0x3D]
  | a :: b :: c :: t =>
    b64Char (a.toNat / 4) :: b64Char (a.toNat % 4 * 16 + b.toNat / 16) :: b64Char (b.toNat % 16 * 4 + c.toNat / 64) ::
      b64Char (c.toNat % 64) :: b64Enc t

/-- value of a character of the alphabet -/
def b64Val (b : UInt8) : Option Nat :=
  if 0x41 ≤ b ∧ b ≤ 0x5A then some (b.toNat - 0x41)
  else if 0x61 ≤ b ∧ b ≤ 0x7A then some (b.toNat - 0x61 + 26)
  else if 0x30 ≤ b ∧ b ≤ 0x39 then some (b.toNat - 0x30 + 52)
  else if b = 0x2B then some 62
  else if b = 0x2F then some 63
  else none

/-- groups of four characters; padding only at the very end; unused low bits are ignored -/
def b64DecAux : Bytes → Option Bytes
  | [] => some []
  | a :: b :: c :: d :: t =>
    match b64Val a, b64Val b with
    | some x, some y =>
      if c = 0x3D then
        if d = 0x3D ∧ t = [] then some [UInt8.ofNat (x * 4 + y / 16)] else none
      else
        match b64Val c with
        | none => none
        | some z =>
          if d = 0x3D then
            if t = [] then some [UInt8.ofNat (x * 4 + y / 16), UInt8.ofNat (y % 16 * 16 + z / 4)] else none
          else
            match b64Val d with
            | none => none
            | some w =>
              (b64DecAux t).map fun r =>
                UInt8.ofNat (x * 4 + y / 16) :: UInt8.ofNat (y % 16 * 16 + z / 4) :: UInt8.ofNat (z % 4 * 64 + w) :: r
    | _, _ => none
  | _ => none

/-- Go `base64.StdEncoding.Decode` (application/encoding.go:29, 43, 64, 86, 97): line breaks are skipped; `none` is an error. -/
def b64Dec (s : Bytes) : Option Bytes := b64DecAux (s.filter fun b => b != 0x0A && b != 0x0D)

end Coniks.Json
