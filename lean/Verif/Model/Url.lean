import Verif.Model.Basic
/-
Go's `url.Parse` (package net/url, Go 1.10, the version of .travis.yml), which reads the addresses of servers:
application/serverbase.go:108 `resolveAndListen`, cli/coniksclient/internal/cmd/run.go:123 and 175, application/testutil/testutil.go:129 and 169.
The user information, the query and the fragment are parsed (they can make `Parse` fail) but not kept: nothing in the repository reads them.
Errors are `none`; their texts are not modelled.
-/
namespace Coniks

/-- The fields of `url.URL` that the callers read (application/serverbase.go:112, 120, 130). -/
structure Url where
  scheme : Bytes
  host : Bytes
  path : Bytes
deriving DecidableEq

/-- Everything before the first `c`, and everything after it; without a `c` everything and nothing. This is `split(s, c, true)` of net/url
(application/serverbase.go:108 calls `url.Parse`). -/
def cutAt (c : UInt8) : Bytes → Bytes × Bytes
  | [] => ([], [])
  | b :: t => if b = c then ([], t) else ((b :: (cutAt c t).1), (cutAt c t).2)

/-- `split(s, "/", false)` of net/url: the second part keeps its slash (application/serverbase.go:108). -/
def cutBeforeSlash : Bytes → Bytes × Bytes
  | [] => ([], [])
  | b :: t => if b = 0x2F then ([], b :: t) else ((b :: (cutBeforeSlash t).1), (cutBeforeSlash t).2)

/-- Letters (net/url, `getscheme`; application/serverbase.go:108). -/
def urlAlpha (c : UInt8) : Bool := (0x61 ≤ c && c ≤ 0x7A) || (0x41 ≤ c && c ≤ 0x5A)

/-- Digits (net/url; application/serverbase.go:108). -/
def urlDigit (c : UInt8) : Bool := 0x30 ≤ c && c ≤ 0x39

/-- `getscheme` of net/url from the position after `acc` (reversed): a scheme and the rest after its colon; an error (`none`) if the string starts
with a colon; no scheme (the empty one, and the whole string `whole`) if a character comes that a scheme cannot have
(application/serverbase.go:108). -/
def getScheme (whole : Bytes) : Bytes → Bytes → Option (Bytes × Bytes)
  | _, [] => some ([], whole)
  | acc, c :: t =>
    if urlAlpha c then getScheme whole (c :: acc) t
    else if urlDigit c || c = 0x2B || c = 0x2D || c = 0x2E then
      if acc = [] then some ([], whole) else getScheme whole (c :: acc) t
    else if c = 0x3A then if acc = [] then none else some (acc.reverse, t)
    else some ([], whole)

/-- `strings.ToLower` on the letters of a scheme (net/url, `parse`; application/serverbase.go:108). -/
def lowerAscii (c : UInt8) : UInt8 := if 0x41 ≤ c && c ≤ 0x5A then c + 0x20 else c

/-- `unhex` of net/url, `none` if the character is not a hexadecimal digit (application/serverbase.go:108). -/
def unhex (c : UInt8) : Option UInt8 :=
  if 0x30 ≤ c && c ≤ 0x39 then some (c - 0x30)
  else if 0x61 ≤ c && c ≤ 0x66 then some (c - 0x61 + 10)
  else if 0x41 ≤ c && c ≤ 0x46 then some (c - 0x41 + 10)
  else none

/-- `!shouldEscape(c, encodeHost)` of net/url (the same for `encodeZone`): letters, digits and ``! $ & ' ( ) * + , ; = : [ ] < > "`` and `- _ . ~`
(application/serverbase.go:108). -/
def hostChar (c : UInt8) : Bool :=
  urlAlpha c || urlDigit c ||
    [0x21, 0x24, 0x26, 0x27, 0x28, 0x29, 0x2A, 0x2B, 0x2C, 0x3B, 0x3D, 0x3A, 0x5B, 0x5D, 0x3C, 0x3E, 0x22, 0x2D, 0x5F, 0x2E, 0x7E].contains c

/-- The modes of `unescape` that `Parse` uses: paths, fragments and user information have no rules of their own (application/serverbase.go:108). -/
inductive EscMode where
  | plain
  | host
  | zone
deriving DecidableEq

/-- Which escape sequences `unescape` of net/url allows: in a host only bytes above 127 and `%25`, in a zone only `%25`, `%20` and what a host
can have (application/serverbase.go:108). -/
def escapeOk (m : EscMode) (hi v : UInt8) : Bool :=
  match m with
  | .plain => true
  | .host => 8 ≤ hi || v = 0x25
  | .zone => v = 0x25 || v = 0x20 || hostChar v

/-- `unescape` of net/url; `none` = an error (application/serverbase.go:108). -/
def unescape (m : EscMode) : Bytes → Option Bytes
  | [] => some []
  | c :: t =>
    if c = 0x25 then
      match t with
      | a :: b :: t' =>
        match unhex a, unhex b with
        | some hi, some lo => if escapeOk m hi (hi * 16 + lo) then (unescape m t').map ((hi * 16 + lo) :: ·) else none
        | _, _ => none
      | _ => none
    else if m ≠ .plain && c < 0x80 && !hostChar c then none
    else (unescape m t).map (c :: ·)

/-- `strings.LastIndex(s, c)`: everything before the last `c` and everything after it, or `none` if there is no `c`
(net/url, `parseAuthority` and `parseHost`; application/serverbase.go:108). -/
def cutLast (c : UInt8) : Bytes → Option (Bytes × Bytes)
  | [] => none
  | b :: t =>
    match cutLast c t with
    | some (x, y) => some (b :: x, y)
    | none => if b = c then some ([], t) else none

/-- Everything before the first `%25`, and everything from there on; `none` if there is none
(net/url, `parseHost`; application/serverbase.go:108). -/
def cutZone : Bytes → Option (Bytes × Bytes)
  | [] => none
  | b :: t =>
    if [0x25, 0x32, 0x35].isPrefixOf (b :: t) then some ([], b :: t)
    else (cutZone t).map fun x => (b :: x.1, x.2)

/-- `validOptionalPort` of net/url (application/serverbase.go:108). -/
def validOptionalPort (p : Bytes) : Bool :=
  match p with
  | [] => true
  | c :: t => c = 0x3A && t.all urlDigit

/-- `parseHost` of net/url; `none` = an error (application/serverbase.go:108). Go 1.10 checks the port only after a bracket. -/
def parseHost (h : Bytes) : Option Bytes :=
  if h.head? = some 0x5B then
    match cutLast 0x5D h with
    | none => none
    | some (inner, port) =>
      if !validOptionalPort port then none
      else
        match cutZone inner with
        | some (addr, zone) =>
          (unescape .host addr).bind fun a => (unescape .zone zone).bind fun z =>
            (unescape .host (0x5D :: port)).map fun p => a ++ z ++ p
        | none => unescape .host h
  else unescape .host h

/-- `validUserinfo` of net/url (application/serverbase.go:108). -/
def userChar (c : UInt8) : Bool :=
  urlAlpha c || urlDigit c ||
    [0x2D, 0x2E, 0x5F, 0x3A, 0x7E, 0x21, 0x24, 0x26, 0x27, 0x28, 0x29, 0x2A, 0x2B, 0x2C, 0x3B, 0x3D, 0x25, 0x40].contains c

/-- `parseAuthority` of net/url: the host; `none` = an error (application/serverbase.go:108). -/
def parseAuthority (a : Bytes) : Option Bytes :=
  match cutLast 0x40 a with
  | none => parseHost a
  | some (user, host) =>
    (parseHost host).bind fun h =>
      if !user.all userChar then none
      else (unescape .plain (cutAt 0x3A user).1).bind fun _ => (unescape .plain (cutAt 0x3A user).2).map fun _ => h

/-- A colon in the first segment of a path (net/url, `parse`; application/serverbase.go:108). -/
def colonFirst (rest : Bytes) : Bool := (cutBeforeSlash rest).1.contains 0x3A

/-- `parse` of net/url, the string without its fragment; `none` = an error (application/serverbase.go:108). -/
def parseNoFragment (raw : Bytes) : Option Url :=
  if raw = [0x2A] then some ⟨[], [], [0x2A]⟩
  else
    (getScheme raw [] raw).bind fun sr =>
      let scheme := sr.1.map lowerAscii
      let rest := (cutAt 0x3F sr.2).1
      if rest.head? ≠ some 0x2F && scheme ≠ [] then some ⟨scheme, [], []⟩
      else if rest.head? ≠ some 0x2F && colonFirst rest then none
      else if (scheme ≠ [] || !([0x2F, 0x2F, 0x2F].isPrefixOf rest)) && [0x2F, 0x2F].isPrefixOf rest then
        (parseAuthority (cutBeforeSlash (rest.drop 2)).1).bind fun host =>
          (unescape .plain (cutBeforeSlash (rest.drop 2)).2).map fun path => ⟨scheme, host, path⟩
      else (unescape .plain rest).map fun path => ⟨scheme, [], path⟩

/-- `url.Parse`, called at application/serverbase.go:108; `none` = an error. -/
def parseUrl (raw : Bytes) : Option Url :=
  (parseNoFragment (cutAt 0x23 raw).1).bind fun u => (unescape .plain (cutAt 0x23 raw).2).map fun _ => u

end Coniks
