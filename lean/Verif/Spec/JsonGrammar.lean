import Verif.Model.Json.Value
import Verif.Spec.Base64
/-
The JSON grammar (RFC 8259) with the meaning of a text, independent of the reader. A text is a list of bytes; characters are those of Lean's `Char`
(every code point but the surrogates) in UTF-8.
-/
namespace Coniks.Spec
open Coniks Json

/-- White space: space, tab, carriage return, line feed. -/
def Ws (s : Bytes) : Prop := ∀ b ∈ s, b ∈ ([0x20, 0x09, 0x0D, 0x0A] : Bytes)

/-- A number: an optional minus (0x2D), then 0 or digits that do not begin with 0 (0x30), then an optional fraction after a point (0x2E) and an
optional exponent after e or E (0x65, 0x45), perhaps with a sign (plus is 0x2B). -/
def Number (s : Bytes) : Prop :=
  ∃ sign int frac exp, s = sign ++ int ++ frac ++ exp ∧ (sign = [] ∨ sign = [0x2D]) ∧
    (int = [0x30] ∨ (Digits int ∧ int.head? ≠ some 0x30)) ∧
    (frac = [] ∨ ∃ ds, Digits ds ∧ frac = 0x2E :: ds) ∧
    (exp = [] ∨ ∃ e sg ds, exp = e :: sg ++ ds ∧ (e = 0x65 ∨ e = 0x45) ∧ (sg = [] ∨ sg = [0x2B] ∨ sg = [0x2D]) ∧ Digits ds)

/-- The hexadecimal digits, in both cases. -/
def hexLower : Bytes := "0123456789abcdef".toList.map fun c => UInt8.ofNat c.toNat
def hexUpper : Bytes := "0123456789ABCDEF".toList.map fun c => UInt8.ofNat c.toNat

/-- `b` is a hexadecimal digit of value `n`. -/
def Hex (b : UInt8) (n : Nat) : Prop := hexLower[n]? = some b ∨ hexUpper[n]? = some b

/-- `h` consists of four hexadecimal digits and writes `n`. -/
def Hex4 (h : Bytes) (n : Nat) : Prop :=
  ∃ a b c d x y z w, h = [a, b, c, d] ∧ Hex a x ∧ Hex b y ∧ Hex c z ∧ Hex d w ∧ n = 16 ^ 3 * x + 16 ^ 2 * y + 16 * z + w

/-- The escapes of one character: quote, backslash, slash, backspace, form feed, line feed, carriage return, tab. -/
def escapes : List (Char × Char) :=
  [('"', '"'), ('\\', '\\'), ('/', '/'), ('b', Char.ofNat 8), ('f', Char.ofNat 12), ('n', '\n'), ('r', '\r'), ('t', '\t')]

/-- Numbers of the two kinds of surrogates (UTF-16). -/
def High (n : Nat) : Prop := 0xD800 ≤ n ∧ n < 0xDC00
def Low (n : Nat) : Prop := 0xDC00 ≤ n ∧ n < 0xE000

/-- `u` begins with the escape of a low surrogate. -/
def LowAhead (u : Bytes) : Prop := ∃ h n r, u = 0x5C :: 0x75 :: (h ++ r) ∧ Hex4 h n ∧ Low n

/-- `StrText t v`: the text `t` between two quotes means the bytes `v`. Bytes that are not part of a character, and surrogates that do not form a
pair, mean U+FFFD. -/
inductive StrText : Bytes → Bytes → Prop
  | nil : StrText [] []
  | char {t v} (c : Char) : 0x20 ≤ c.toNat → c ≠ '"' → c ≠ '\\' → StrText t v →
      StrText (String.utf8EncodeChar c ++ t) (String.utf8EncodeChar c ++ v)
  | bad {t v} (b : UInt8) : (∀ c r, b :: t ≠ String.utf8EncodeChar c ++ r) → StrText t v →
      StrText (b :: t) (String.utf8EncodeChar (Char.ofNat 0xFFFD) ++ v)
  | esc {t v} (e c : Char) : (e, c) ∈ escapes → StrText t v →
      StrText (0x5C :: (String.utf8EncodeChar e ++ t)) (String.utf8EncodeChar c ++ v)
  | uni {t v} (h : Bytes) (c : Char) : Hex4 h c.toNat → StrText t v → StrText (0x5C :: 0x75 :: (h ++ t)) (String.utf8EncodeChar c ++ v)
  | pair {t v} (h l : Bytes) (n m : Nat) (c : Char) : Hex4 h n → High n → Hex4 l m → Low m →
      c.toNat = 0x10000 + 0x400 * (n - 0xD800) + (m - 0xDC00) → StrText t v →
      StrText (0x5C :: 0x75 :: (h ++ 0x5C :: 0x75 :: (l ++ t))) (String.utf8EncodeChar c ++ v)
  | lone {t v} (h : Bytes) (n : Nat) : Hex4 h n → (High n ∧ ¬ LowAhead t) ∨ Low n → StrText t v →
      StrText (0x5C :: 0x75 :: (h ++ t)) (String.utf8EncodeChar (Char.ofNat 0xFFFD) ++ v)

/-- An element of an array: its text and value, and the white space around it. -/
structure ElemText where
  before : Bytes
  text : Bytes
  after : Bytes
  val : JVal

/-- The text of the element with its surroundings. -/
def ElemText.all (e : ElemText) : Bytes := e.before ++ e.text ++ e.after

/-- A member of an object: the text and meaning of its name, the text and value, and the white space between. -/
structure MemberText where
  before : Bytes
  nameText : Bytes
  name : Bytes
  after : Bytes
  value : ElemText

/-- The text of the member with its surroundings. -/
def MemberText.all (m : MemberText) : Bytes := m.before ++ 0x22 :: m.nameText ++ 0x22 :: m.after ++ 0x3A :: m.value.all

/-- `ValText t v`: the text `t`, without white space around it, means the value `v`. -/
inductive ValText : Bytes → JVal → Prop
  | null : ValText [0x6E, 0x75, 0x6C, 0x6C] .null
  | true : ValText [0x74, 0x72, 0x75, 0x65] (.bool true)
  | false : ValText [0x66, 0x61, 0x6C, 0x73, 0x65] (.bool false)
  | num {s} : Number s → ValText s (.num s)
  | str {t v} : StrText t v → ValText (0x22 :: t ++ [0x22]) (.str v)
  | arr0 {w} : Ws w → ValText (0x5B :: w ++ [0x5D]) (.arr [])
  | arr {es : List ElemText} : es ≠ [] → (∀ e ∈ es, Ws e.before ∧ Ws e.after) → (∀ e ∈ es, ValText e.text e.val) →
      ValText (0x5B :: List.intercalate [0x2C] (es.map ElemText.all) ++ [0x5D]) (.arr (es.map ElemText.val))
  | obj0 {w} : Ws w → ValText (0x7B :: w ++ [0x7D]) (.obj [])
  | obj {ms : List MemberText} : ms ≠ [] →
      (∀ m ∈ ms, Ws m.before ∧ StrText m.nameText m.name ∧ Ws m.after ∧ Ws m.value.before ∧ Ws m.value.after) →
      (∀ m ∈ ms, ValText m.value.text m.value.val) →
      ValText (0x7B :: List.intercalate [0x2C] (ms.map MemberText.all) ++ [0x7D]) (.obj (ms.map fun m => (m.name, m.value.val)))

/-- `s` is a JSON text with the value `v`. -/
def JsonText (s : Bytes) (v : JVal) : Prop := ∃ w₁ t w₂, s = w₁ ++ t ++ w₂ ∧ Ws w₁ ∧ Ws w₂ ∧ ValText t v

end Coniks.Spec
