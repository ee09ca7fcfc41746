import Verif.Model.Basic
/-
Model of `utils/utils.go` and `utils/coname.go` (the pure part).
-/
namespace Coniks

/-- utils/coname.go:42-48 `ToBits`. The loop writes `bits[i]` for every `i < 8*len(bs)`. -/
def toBits (bs : Bytes) : List Bool :=
  (List.range (bs.length * 8)).map fun i =>
    decide (((bs.getD (i / 8) 0) <<< (UInt8.ofNat (i % 8))) &&& ((1 : UInt8) <<< (7 : UInt8)) > 0)

/-- utils/coname.go:31-35, body of the loop of `ToBytes` at step `i` with `bits[i] = b`:
`if bits[i] { bs[i/8] |= (1 << 7) >> uint(i%8) }`. -/
def toBytesStep (bs : Bytes) (i : Nat) (b : Bool) : Bytes :=
  if b then bs.modify (i / 8) (fun x => x ||| (((1 : UInt8) <<< (7 : UInt8)) >>> (UInt8.ofNat (i % 8)))) else bs

/-- utils/coname.go:31-35, the loop of `ToBytes` from step `i` on, `bits` being the bits still to do. -/
def toBytesLoop (bs : Bytes) (i : Nat) : List Bool → Bytes
  | [] => bs
  | b :: rest => toBytesLoop (toBytesStep bs i b) (i + 1) rest

/-- utils/coname.go:29-37 `ToBytes`. -/
def toBytes (bits : List Bool) : Bytes :=
  toBytesLoop (List.replicate ((bits.length + 7) / 8) 0) 0 bits

/-- utils/utils.go:14-20 `GetNthBit`. The offset is a `uint32` in Go (here a `Nat`; callers pass
offsets below 2^32). Panics when `offset/8` is out of range. -/
def getNthBit (bs : Bytes) (offset : Nat) : Go Bool :=
  match bs[offset / 8]? with
  | none => none
  | some b => some ((b &&& ((1 : UInt8) <<< (UInt8.ofNat (7 - offset % 8)))) != 0)

/-- encoding/binary `LittleEndian.PutUint64` as used in utils/utils.go:26. -/
def putUint64LE (v : UInt64) : Bytes :=
  [v.toUInt8, (v >>> 8).toUInt8, (v >>> 16).toUInt8, (v >>> 24).toUInt8,
   (v >>> 32).toUInt8, (v >>> 40).toUInt8, (v >>> 48).toUInt8, (v >>> 56).toUInt8]

/-- encoding/binary `LittleEndian.PutUint32` as used in utils/utils.go:40. -/
def putUint32LE (v : UInt32) : Bytes :=
  [v.toUInt8, (v >>> 8).toUInt8, (v >>> 16).toUInt8, (v >>> 24).toUInt8]

/-- utils/utils.go:24-28 `LongToBytes`. -/
def longToBytes (num : Int64) : Bytes := putUint64LE num.toUInt64

/-- utils/utils.go:32-34 `ULongToBytes` (goes through `int64`, as in the code). -/
def ulongToBytes (num : UInt64) : Bytes := longToBytes num.toInt64

/-- utils/utils.go:38-42 `UInt32ToBytes`. -/
def uint32ToBytes (num : UInt32) : Bytes := putUint32LE num

end Coniks
