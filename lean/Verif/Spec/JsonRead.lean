import Verif.Model.Json.Codec
import Verif.Spec.Base64
/-
What a JSON object says about a field, independent of the decoder: names are compared without regard to case, `null` says nothing, the last
value counts.
-/
namespace Coniks.Spec
open Coniks Json

/-- The two bytes are one letter in different cases: capitals are 0x41 to 0x5A, the small letter is 0x20 further. -/
def sameLetter (a b : UInt8) : Bool :=
  (0x41 ≤ a.toNat && a.toNat ≤ 0x5A && b.toNat == a.toNat + 0x20) || (0x41 ≤ b.toNat && b.toNat ≤ 0x5A && a.toNat == b.toNat + 0x20)

/-- `key` is the name of the field in some letters: either case, U+017F (0xC5 0xBF) for s, U+212A (0xE2 0x84 0xAA) for k. -/
def sameName : (name key : Bytes) → Bool
  | [], key => key.isEmpty
  | c :: name, key =>
    (match key with
      | b :: k => (b == c || sameLetter b c) && sameName name k
      | [] => false) ||
    ((c == 0x73 || c == 0x53) && key.take 2 == [0xC5, 0xBF] && sameName name (key.drop 2)) ||
    ((c == 0x6B || c == 0x4B) && key.take 3 == [0xE2, 0x84, 0xAA] && sameName name (key.drop 3))

/-- The values of the members called `name`, in order. -/
def vals (name : String) (ms : List (Bytes × JVal)) : List JVal :=
  (ms.filter fun m => sameName (ascii name) m.1).map fun m => m.2

def isNull : JVal → Bool
  | .null => true
  | _ => false

/-- The last value that is not `null`. -/
def lastSaid (vs : List JVal) : Option JVal := (vs.filter fun v => !isNull v).getLast?

/-- The values are integers or `null`, and the last integer is `n` (0 if there is none). -/
def SaysInt (vs : List JVal) (n : Int) : Prop :=
  (∀ v ∈ vs, v = .null ∨ ∃ lit m, v = .num lit ∧ IntText lit m) ∧
  ((lastSaid vs = none ∧ n = 0) ∨ ∃ lit, lastSaid vs = some (.num lit) ∧ IntText lit n)

/-- The values are numbers below 2^64 or `null`, and the last one is `n` (0 if there is none). -/
def SaysEpoch (vs : List JVal) (n : UInt64) : Prop :=
  (∀ v ∈ vs, v = .null ∨ ∃ lit m, v = .num lit ∧ NatText (2 ^ 64) lit m) ∧
  ((lastSaid vs = none ∧ n = 0) ∨ ∃ lit, lastSaid vs = some (.num lit) ∧ NatText (2 ^ 64) lit n.toNat)

/-- The values are strings or `null`, and the last string is `s` (empty if there is none). -/
def SaysString (vs : List JVal) (s : Bytes) : Prop :=
  (∀ v ∈ vs, v = .null ∨ ∃ x, v = .str x) ∧
  ((lastSaid vs = none ∧ s = []) ∨ lastSaid vs = some (.str s))

/-- An element of an array of bytes where `old` was before: `null` says nothing, otherwise it is a number below 256. -/
def SaysByte (old : UInt8) (v : JVal) (x : UInt8) : Prop := (v = .null ∧ x = old) ∨ ∃ lit, v = .num lit ∧ NatText 256 lit x.toNat

/-- What the values say one after the other about a field of bytes: `null` empties it, a string must be the base64 text of what it becomes, and an
array gives it element by element, where an element says nothing about the byte that was at its place (or 0 if there was none). -/
inductive SaysBytes : List JVal → Bytes → Prop
  | none : SaysBytes [] []
  | null {vs a} : SaysBytes vs a → SaysBytes (vs ++ [.null]) []
  | text {vs a s b} : SaysBytes vs a → Base64 s b → SaysBytes (vs ++ [.str s]) b
  | array {vs a es} {b : Bytes} : SaysBytes vs a → b.length = es.length → (∀ (i : Nat) (v : JVal), es[i]? = some v → SaysByte (a.getD i 0) v (b.getD i 0)) →
      SaysBytes (vs ++ [.arr es]) b

/-- The values are true, false or `null`. -/
def SaysBool (vs : List JVal) : Prop := ∀ v ∈ vs, v = .null ∨ ∃ b, v = .bool b

/-- The content of a request: the last `Request` before the first one that is `null`. -/
def contentOf (ms : List (Bytes × JVal)) : Option JVal := ((vals "Request" ms).takeWhile fun v => !isNull v).getLast?

/-- The message `msg`, a JSON object, says the request `req`. -/
def Says (ms : List (Bytes × JVal)) (req : Request) : Prop :=
  SaysInt (vals "Type" ms) req.type ∧
  ∃ c, contentOf ms = some c ∧
    match req.payload with
    | .registration r => req.type = 0 ∧ ∃ cs, c = .obj cs ∧ SaysString (vals "Username" cs) r.username ∧ SaysBytes (vals "Key" cs) r.key ∧
        SaysBool (vals "AllowUnsignedKeychange" cs) ∧ SaysBool (vals "AllowPublicLookup" cs)
    | .keyLookup r => req.type = 1 ∧ ∃ cs, c = .obj cs ∧ SaysString (vals "Username" cs) r.username
    | .keyLookupInEpoch r => req.type = 2 ∧ ∃ cs, c = .obj cs ∧ SaysString (vals "Username" cs) r.username ∧ SaysEpoch (vals "Epoch" cs) r.epoch
    | .monitoring r => req.type = 3 ∧ ∃ cs, c = .obj cs ∧ SaysString (vals "Username" cs) r.username ∧
        SaysEpoch (vals "StartEpoch" cs) r.startEpoch ∧ SaysEpoch (vals "EndEpoch" cs) r.endEpoch
    | .other => req.type ∉ [0, 1, 2, 3]
    | _ => False

end Coniks.Spec
