import Verif.Model.Basic
/-
Model of `storage/kv/range.go`.
-/
namespace Coniks

/-- storage/kv/range.go:44-50 `Range`; `limit = none` is the Go `nil` limit ("no limit"). -/
structure KVRange where
  start : Bytes
  limit : Option Bytes
deriving DecidableEq

/-- storage/kv/range.go:57-65, the loop of `IncrementKey`; argument `i+1` stands for loop variable `i`,
`0` for leaving the loop. `make`+`copy`+assignment of `limit` is `take` followed by `set`. -/
def incrementKeyLoop (pfx : Bytes) : Nat → Option Bytes
  | 0 => none
  | i + 1 =>
    match pfx[i]? with
    | none => none
    | some c =>
      if c < 0xff then some ((pfx.take (i + 1)).set i (c + 1)) else incrementKeyLoop pfx i

/-- storage/kv/range.go:56-67 `IncrementKey` (`none` is Go's `nil` sentinel, not a panic). -/
def incrementKey (pfx : Bytes) : Option Bytes := incrementKeyLoop pfx pfx.length

/-- storage/kv/range.go:70-72 `BytesPrefix`. -/
def bytesPrefix (pfx : Bytes) : KVRange := ⟨pfx, incrementKey pfx⟩

end Coniks
