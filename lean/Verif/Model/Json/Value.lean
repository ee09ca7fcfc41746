import Verif.Model.Basic
/-
JSON text as the Go library `encoding/json` writes and reads it. The library is not part of /repo; application/encoding.go
calls `json.Marshal` (16-19, 51-53) and `json.Unmarshal` (29-31, 43-45, 64, 86, 97), and this file models what these two do with
the text. Every value is a tree `JVal`; the struct codecs are in `Codec.lean`.

Simplification: the nesting limit of newer Go versions (10000) is not modelled; no message of at most 8192 bytes reaches it.
-/
namespace Coniks.Json

/-- A JSON value. A number is kept as its literal, a string as its bytes after unquoting. Used for application/encoding.go:16-104. -/
inductive JVal where
  | null
  | bool (b : Bool)
  | num (lit : Bytes)
  | str (s : Bytes)
  | arr (xs : List JVal)
  | obj (ms : List (Bytes × JVal))
deriving Inhabited

/-! ### UTF-8 (Go `unicode/utf8`) -/

/-- a continuation byte -/
def isCont (b : UInt8) : Bool := 0x80 ≤ b && b ≤ 0xBF

/-- The length of the valid UTF-8 sequence at the front, 0 if there is none (Go `utf8.DecodeRune` used by `json.Marshal` and
`json.Unmarshal`, application/encoding.go:16, 29; `0` is `RuneError` with size 1). -/
def utf8Head : Bytes → Nat
  | [] => 0
  | a :: t =>
    if a < 0x80 then 1
    else if a < 0xC2 then 0
    else if a < 0xE0 then
      match t with
      | b :: _ => if isCont b then 2 else 0
      | _ => 0
    else if a < 0xF0 then
      match t with
      | b :: c :: _ =>
        if isCont b && isCont c && (a != 0xE0 || 0xA0 ≤ b) && (a != 0xED || b ≤ 0x9F) then 3 else 0
      | _ => 0
    else if a < 0xF5 then
      match t with
      | b :: c :: d :: _ =>
        if isCont b && isCont c && isCont d && (a != 0xF0 || 0x90 ≤ b) && (a != 0xF4 || b ≤ 0x8F) then 4 else 0
      | _ => 0
    else 0

/-- U+FFFD in UTF-8 -/
def replacement : Bytes := [0xEF, 0xBF, 0xBD]

/-- What remains of a string that is written and read again: every byte that is not part of a valid sequence becomes U+FFFD.
The number counts the bytes of a valid sequence that are still to be copied. -/
def cleanAux : Nat → Bytes → Bytes
  | _, [] => []
  | k + 1, a :: t => a :: cleanAux k t
  | 0, a :: t =>
    match utf8Head (a :: t) with
    | 0 => replacement ++ cleanAux 0 t
    | k + 1 => a :: cleanAux k t

/-- see `cleanAux` -/
def clean (s : Bytes) : Bytes := cleanAux 0 s

/-! ### Writing (`json.Marshal`) -/

/-- a lower-case hexadecimal digit -/
def hexDigit (n : UInt8) : UInt8 := if n < 10 then 0x30 + n else 0x57 + n

/-- one ASCII character of a string (Go `encodeState.string` with HTML escaping; application/encoding.go:16, 52) -/
def escAscii (a : UInt8) : Bytes :=
  if a = 0x22 ∨ a = 0x5C then [0x5C, a]
  else if a = 0x0A then [0x5C, 0x6E]
  else if a = 0x0D then [0x5C, 0x72]
  else if a = 0x09 then [0x5C, 0x74]
  else if a < 0x20 ∨ a = 0x3C ∨ a = 0x3E ∨ a = 0x26 then [0x5C, 0x75, 0x30, 0x30, hexDigit (a >>> 4), hexDigit (a &&& 15)]
  else [a]

/-- U+2028 or U+2029 at the front -/
def lineSep : Bytes → Bool
  | a :: b :: c :: _ => a == 0xE2 && b == 0x80 && (c == 0xA8 || c == 0xA9)
  | _ => false

/-- The body of a string literal (Go `encodeState.string`; application/encoding.go:16, 52). The number counts the bytes of a valid
sequence that are still to be copied (`true`) or skipped (`false`). -/
def escAux : Bool → Nat → Bytes → Bytes
  | _, _, [] => []
  | true, k + 1, a :: t => a :: escAux true k t
  | false, k + 1, _ :: t => escAux false k t
  | _, 0, a :: t =>
    match utf8Head (a :: t) with
    | 0 => [0x5C, 0x75, 0x66, 0x66, 0x66, 0x64] ++ escAux true 0 t
    | 1 => escAscii a ++ escAux true 0 t
    | k + 1 =>
      if lineSep (a :: t) then [0x5C, 0x75, 0x32, 0x30, 0x32, hexDigit ((t.getD 1 0) &&& 15)] ++ escAux false k t
      else a :: escAux true k t

/-- a string literal -/
def quote (s : Bytes) : Bytes := 0x22 :: (escAux true 0 s ++ [0x22])

mutual
/-- Go `json.Marshal` of a value (application/encoding.go:16, 52). -/
def JVal.print : JVal → Bytes
  | .null => [0x6E, 0x75, 0x6C, 0x6C]
  | .bool true => [0x74, 0x72, 0x75, 0x65]
  | .bool false => [0x66, 0x61, 0x6C, 0x73, 0x65]
  | .num lit => lit
  | .str s => quote s
  | .arr [] => [0x5B, 0x5D]
  | .arr (x :: xs) => 0x5B :: (JVal.print x ++ printElems xs)
  | .obj [] => [0x7B, 0x7D]
  | .obj (m :: ms) => 0x7B :: (printMember m ++ printMembers ms)
/-- the rest of an array, up to the closing bracket -/
def printElems : List JVal → Bytes
  | [] => [0x5D]
  | x :: xs => 0x2C :: (JVal.print x ++ printElems xs)
/-- one member of an object -/
def printMember : Bytes × JVal → Bytes
  | (k, v) => quote k ++ 0x3A :: JVal.print v
/-- the rest of an object, up to the closing brace -/
def printMembers : List (Bytes × JVal) → Bytes
  | [] => [0x7D]
  | m :: ms => 0x2C :: (printMember m ++ printMembers ms)
end

/-! ### Reading (`json.Unmarshal`: the scanner, and `unquote` for strings) -/

/-- white space of the scanner -/
def isWs (b : UInt8) : Bool := b == 0x20 || b == 0x09 || b == 0x0D || b == 0x0A

/-- skip white space -/
def skipWs (s : Bytes) : Bytes := s.dropWhile isWs

/-- a decimal digit -/
def isDigit (b : UInt8) : Bool := 0x30 ≤ b && b ≤ 0x39

/-- value of a hexadecimal digit -/
def hexVal (b : UInt8) : Option Nat :=
  if 0x30 ≤ b ∧ b ≤ 0x39 then some (b.toNat - 0x30)
  else if 0x61 ≤ b ∧ b ≤ 0x66 then some (b.toNat - 0x57)
  else if 0x41 ≤ b ∧ b ≤ 0x46 then some (b.toNat - 0x37)
  else none

/-- the four hexadecimal digits of a `\u` escape (Go `getu4`) -/
def hex4 : Bytes → Option (Nat × Bytes)
  | a :: b :: c :: d :: t =>
    match hexVal a, hexVal b, hexVal c, hexVal d with
    | some a, some b, some c, some d => some (((a * 16 + b) * 16 + c) * 16 + d, t)
    | _, _, _, _ => none
  | _ => none

/-- Go `utf8.EncodeRune` -/
def encodeRune (n : Nat) : Bytes :=
  if n < 0x80 then [UInt8.ofNat n]
  else if n < 0x800 then [UInt8.ofNat (0xC0 + n / 64), UInt8.ofNat (0x80 + n % 64)]
  else if 0xD800 ≤ n ∧ n < 0xE000 then replacement
  else if n < 0x10000 then [UInt8.ofNat (0xE0 + n / 4096), UInt8.ofNat (0x80 + n / 64 % 64), UInt8.ofNat (0x80 + n % 64)]
  else if n < 0x110000 then
    [UInt8.ofNat (0xF0 + n / 262144), UInt8.ofNat (0x80 + n / 4096 % 64), UInt8.ofNat (0x80 + n / 64 % 64),
      UInt8.ofNat (0x80 + n % 64)]
  else replacement

/-- the code unit of a `\u` escape with what follows: a high surrogate followed by the escape of a low one gives one rune, any
other surrogate gives U+FFFD (Go `unquote`, `utf16.DecodeRune`) -/
def uEscape (n : Nat) (t : Bytes) : Bytes × Bytes :=
  if 0xD800 ≤ n ∧ n < 0xE000 then
    match t with
    | 0x5C :: 0x75 :: t' =>
      match hex4 t' with
      | some (m, t'') =>
        if n < 0xDC00 ∧ 0xDC00 ≤ m ∧ m < 0xE000 then (encodeRune (0x10000 + (n - 0xD800) * 1024 + (m - 0xDC00)), t'')
        else (replacement, t)
      | none => (replacement, t)
    | _ => (replacement, t)
  else (encodeRune n, t)

/-- One step inside a string literal: `inl` = the closing quote, `inr` = the bytes of one character. -/
def strStep : Bytes → Option (Bytes ⊕ (Bytes × Bytes))
  | [] => none
  | c :: t =>
    if c = 0x22 then some (.inl t)
    else if c = 0x5C then
      match t with
      | [] => none
      | e :: t =>
        if e = 0x75 then (hex4 t).map fun x => .inr (uEscape x.1 x.2)
        else if e = 0x22 ∨ e = 0x5C ∨ e = 0x2F then some (.inr ([e], t))
        else if e = 0x62 then some (.inr ([8], t))
        else if e = 0x66 then some (.inr ([12], t))
        else if e = 0x6E then some (.inr ([10], t))
        else if e = 0x72 then some (.inr ([13], t))
        else if e = 0x74 then some (.inr ([9], t))
        else none
    else if c < 0x20 then none
    else
      match utf8Head (c :: t) with
      | 0 => some (.inr (replacement, t))
      | k + 1 => some (.inr (c :: t.take k, t.drop k))

/-- A string literal after the opening quote: its bytes and what follows. The first argument bounds the number of characters;
`parse_fuel` (Proofs/Json/Prefix.lean) shows that the bound is never the reason for a rejection. -/
def pStr : Nat → Bytes → Option (Bytes × Bytes)
  | 0, _ => none
  | f + 1, s =>
    match strStep s with
    | none => none
    | some (.inl t) => some ([], t)
    | some (.inr (b, t)) => (pStr f t).map fun x => (b ++ x.1, x.2)

/-- the digits at the front and what follows -/
def digits (s : Bytes) : Bytes × Bytes := (s.takeWhile isDigit, s.dropWhile isDigit)

/-- an optional fraction -/
def pFrac (s : Bytes) : Option (Bytes × Bytes) :=
  match s with
  | 0x2E :: t => if (digits t).1 = [] then none else some (0x2E :: (digits t).1, (digits t).2)
  | _ => some ([], s)

/-- the sign of an exponent -/
def pSign (s : Bytes) : Bytes × Bytes :=
  match s with
  | c :: t => if c = 0x2B ∨ c = 0x2D then ([c], t) else ([], s)
  | [] => ([], s)

/-- an optional exponent -/
def pExp (s : Bytes) : Option (Bytes × Bytes) :=
  match s with
  | e :: t =>
    if e = 0x65 ∨ e = 0x45 then
      if (digits (pSign t).2).1 = [] then none
      else some (e :: (pSign t).1 ++ (digits (pSign t).2).1, (digits (pSign t).2).2)
    else some ([], s)
  | [] => some ([], s)

/-- the digits before the point: a single 0, or digits that do not begin with 0 -/
def pInt (s : Bytes) : Option (Bytes × Bytes) :=
  match s with
  | c :: t => if c = 0x30 then some ([c], t) else if isDigit c then some (digits s) else none
  | [] => none

/-- an optional minus sign -/
def pMinus (s : Bytes) : Bytes × Bytes :=
  match s with
  | c :: t => if c = 0x2D then ([c], t) else ([], s)
  | [] => ([], s)

/-- A number literal (the number states of the scanner). -/
def pNum (s : Bytes) : Option (Bytes × Bytes) :=
  (pInt (pMinus s).2).bind fun i => (pFrac i.2).bind fun f => (pExp f.2).map fun e =>
    ((pMinus s).1 ++ i.1 ++ f.1 ++ e.1, e.2)

/-- a literal keyword -/
def pLit (kw : Bytes) (v : JVal) (s : Bytes) : Option (JVal × Bytes) :=
  if s.take kw.length = kw then some (v, s.drop kw.length) else none

mutual
/-- A value with what follows it (Go `json.Unmarshal`; application/encoding.go:29, 43, 64, 86, 97). The first argument bounds the number of values; `parse_fuel` shows that the bound is never the reason
for a rejection. -/
def pValue : Nat → Bytes → Option (JVal × Bytes)
  | 0, _ => none
  | f + 1, s0 =>
    match skipWs s0 with
    | [] => none
    | c :: t =>
      if c = 0x7B then
        match skipWs t with
        | 0x7D :: t' => some (.obj [], t')
        | _ => (pMembers f t).map fun x => (.obj x.1, x.2)
      else if c = 0x5B then
        match skipWs t with
        | 0x5D :: t' => some (.arr [], t')
        | _ => (pElems f t).map fun x => (.arr x.1, x.2)
      else if c = 0x22 then (pStr (t.length + 1) t).map fun x => (.str x.1, x.2)
      else if c = 0x74 then pLit [0x74, 0x72, 0x75, 0x65] (.bool true) (c :: t)
      else if c = 0x66 then pLit [0x66, 0x61, 0x6C, 0x73, 0x65] (.bool false) (c :: t)
      else if c = 0x6E then pLit [0x6E, 0x75, 0x6C, 0x6C] .null (c :: t)
      else (pNum (c :: t)).map fun x => (.num x.1, x.2)
/-- the elements of a non-empty array, after the bracket or a comma -/
def pElems : Nat → Bytes → Option (List JVal × Bytes)
  | 0, _ => none
  | f + 1, s =>
    match pValue f s with
    | none => none
    | some (v, t) =>
      match skipWs t with
      | 0x2C :: t' => (pElems f t').map fun x => (v :: x.1, x.2)
      | 0x5D :: t' => some ([v], t')
      | _ => none
/-- the members of a non-empty object, after the brace or a comma -/
def pMembers : Nat → Bytes → Option (List (Bytes × JVal) × Bytes)
  | 0, _ => none
  | f + 1, s =>
    match skipWs s with
    | 0x22 :: t =>
      match pStr (t.length + 1) t with
      | none => none
      | some (k, t) =>
        match skipWs t with
        | 0x3A :: t =>
          match pValue f t with
          | none => none
          | some (v, t) =>
            match skipWs t with
            | 0x2C :: t' => (pMembers f t').map fun x => ((k, v) :: x.1, x.2)
            | 0x7D :: t' => some ([(k, v)], t')
            | _ => none
        | _ => none
    | _ => none
end

/-- Reading a whole text (Go `json.Unmarshal`; application/encoding.go:29, 43, 64, 86, 97): one value with nothing but white space
around it; `none` is a syntax error. -/
def parse (s : Bytes) : Option JVal :=
  match pValue (2 * s.length + 2) s with
  | some (v, t) => if skipWs t = [] then some v else none
  | none => none

end Coniks.Json
