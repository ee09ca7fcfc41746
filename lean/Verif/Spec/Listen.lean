import Verif.Model.Listen
/-
What the addresses of a configuration stand for.
-/
namespace Coniks.Spec
open Json

/-- What an entry of a configuration asks for on this machine: a `tcp` address (with a certificate and key that can be loaded, a host that can
be resolved, and an address that can be bound), a `unix` address (with a path at which a socket can be made), or a `unix` address without a path,
for which the kernel picks a name that nobody knows. Everything else asks for nothing. -/
inductive AsksFor (M : Machine) (a : AddressToml) : Bound → Prop
  | tcp (u : Url) (e : Endpoint) : parseUrl a.address = some u → u.scheme = ascii "tcp" → M.pair a.cert a.key = true → M.resolve u.host = some e →
      M.tcpOk e = true → AsksFor M a (.tcp e)
  | unix (u : Url) : parseUrl a.address = some u → u.scheme = ascii "unix" → u.path ≠ [] → M.pathOk u.path = true →
      AsksFor M a (.unix (locate M.cwd u.path))
  | hidden (u : Url) : parseUrl a.address = some u → u.scheme = ascii "unix" → u.path = [] → AsksFor M a .hidden

/-- Two TCP addresses that exclude each other: the same port (not 0), and the same address or a wildcard. -/
def Overlap (a b : Endpoint) : Prop := a.port = b.port ∧ a.port ≠ 0 ∧ (a.ip = none ∨ b.ip = none ∨ a.ip = b.ip)

/-- Two sockets that can exist side by side. -/
def Apart : Bound → Bound → Prop
  | .tcp a, .tcp b => ¬ Overlap a b
  | .unix p, .unix q => p ≠ q
  | _, _ => True

/-- Nothing on the machine is in the way of a socket: nobody listens on an overlapping TCP address; there is no file at the path. -/
def Free (o : Os) : Bound → Prop
  | .tcp e => ∀ x ∈ o.socks, ∀ e', x.2 = .tcp e' → ¬ Overlap e e'
  | .unix p => o.node p = none
  | .hidden => True

/-- The address that a client uses leads to this socket: a `tcp` address that resolves to the same port and to the socket's address (or the socket
has the wildcard address), or a `unix` address whose path leads to the socket's place. -/
def LeadsTo (M : Machine) (address : Bytes) : Bound → Prop
  | .tcp b => ∃ u e, parseUrl address = some u ∧ u.scheme = ascii "tcp" ∧ M.resolve u.host = some e ∧ e.port = b.port ∧ e.port ≠ 0 ∧
      (b.ip = none ∨ b.ip = some (e.ip.getD M.loopback))
  | .unix p => ∃ u, parseUrl address = some u ∧ u.scheme = ascii "unix" ∧ u.path ≠ [] ∧ locate M.cwd u.path = p
  | .hidden => False

/-- The event does not end (or start) the process. -/
def Spares (pid : Nat) : OsEv → Prop
  | .start q _ => q ≠ pid
  | .interrupt q => q ≠ pid
  | .kill q => q ≠ pid
  | _ => True

/-- The event does not remove the file at the place (by hand). -/
def Leaves (p : Place) : OsEv → Prop
  | .remove q => q ≠ p
  | _ => True

/-- The process has no listening socket. -/
def Idle (o : Os) (pid : Nat) : Prop := ∀ x ∈ o.socks, x.1.pid ≠ pid

/-- A machine that has just booted: files, but no Unix sockets among them, and no servers. -/
def booted (files : Place → Bool) : Os := { node := fun p => if files p then some .other else none, socks := [], next := 0 }

/-- `c` is a hexadecimal digit with value `x`. -/
def HexDigit (c : UInt8) (x : Nat) : Prop :=
  (48 ≤ c.toNat ∧ c.toNat ≤ 57 ∧ x = c.toNat - 48) ∨ (97 ≤ c.toNat ∧ c.toNat ≤ 102 ∧ x = c.toNat - 87) ∨ (65 ≤ c.toNat ∧ c.toNat ≤ 70 ∧ x = c.toNat - 55)

/-- The text `s` stands for the bytes `p`: `%` with two hexadecimal digits for one byte, everything else for itself (RFC 3986, 2.1). -/
inductive Spells : Bytes → Bytes → Prop
  | nil : Spells [] []
  | lit (c : UInt8) {s p : Bytes} : c ≠ 0x25 → Spells s p → Spells (c :: s) (c :: p)
  | esc (h l : UInt8) (x y : Nat) {s p : Bytes} : HexDigit h x → HexDigit l y → Spells s p → Spells (0x25 :: h :: l :: s) (UInt8.ofNat (16 * x + y) :: p)

/-- `s` is `t`, which has small letters only, up to the case of letters. -/
def AnyCase (s t : Bytes) : Prop :=
  s.length = t.length ∧ ∀ x ∈ s.zip t, x.1 = x.2 ∨ (65 ≤ x.1.toNat ∧ x.1.toNat ≤ 90 ∧ x.2.toNat = x.1.toNat + 32)

end Coniks.Spec
