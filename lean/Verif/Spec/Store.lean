import Verif.Model.Store
import Verif.Spec.Lex
/-
What a durable key-value store holds after a history, without logs or tables.
-/
namespace Coniks.Spec
open Coniks

/-- What a put or delete says about a key: nothing, that it has a value, that it has none. -/
def saysOf (k : Bytes) : StoreOp → Option (Option Bytes)
  | .put k' v => if k' = k then some (some v) else none
  | .del k' => if k' = k then some none else none

/-- The value of a key after some puts and deletes in this order: what the last one that names the key says. -/
def valueOf (k : Bytes) (ops : List StoreOp) : Option Bytes := (ops.filterMap (saysOf k)).getLast?.join

/-- The puts and deletes of an event that may have taken effect, in an open store: those of a call that returned, all of them;
those of a call cut off by a crash, all or nothing. -/
def effects : StoreEv → List (List StoreOp)
  | .get _ => [[]]
  | .put k v => [[.put k v]]
  | .delete k => [[.del k]]
  | .write none => [[]]
  | .write (some b) => [b]
  | .close => [[]]
  | .reopen => [[]]
  | .crash none _ => [[]]
  | .crash (some b) _ => [[], b]

/-- A closed store changes no more; it is open again after `reopen` or a crash. -/
def nowOpen (wasOpen : Bool) : StoreEv → Bool
  | .close => false
  | .reopen => true
  | .crash _ _ => true
  | _ => wasOpen

/-- What may have taken effect in a whole history. -/
def outcomes : Bool → List StoreEv → List (List StoreOp)
  | _, [] => [[]]
  | o, e :: es =>
    (if o then effects e else [[]]).flatMap fun a => (outcomes (nowOpen o e) es).map fun b => a ++ b

/-- The puts or deletes of an event name the key. -/
def WritesKey (k : Bytes) (e : StoreEv) : Prop := ∃ a ∈ effects e, ∃ o ∈ a, o = .del k ∨ ∃ v, o = .put k v

/-- The loop `for ok := it.First(); ok; ok = it.Next() { ... it.Key(), it.Value() ... }`, at most `n` rounds of it: the entries
seen (`none`: the iterator said there is an entry and showed none). -/
def scan : Nat → StoreIter × Bool → List (Option (Bytes × Bytes))
  | 0, _ => []
  | n + 1, (it, ok) => if ok then it.entry :: scan n it.next else []

/-- The entries of a range, each once, in key order. -/
def IsScan (contents : Bytes → Option Bytes) (wanted : Bytes → Prop) (l : List (Bytes × Bytes)) : Prop :=
  l.Pairwise (fun a b => LexLt a.1 b.1) ∧ ∀ k v, (k, v) ∈ l ↔ wanted k ∧ contents k = some v

/-- The keys a range asks for; no range asks for all. -/
def Wanted : Option KVRange → Bytes → Prop
  | none, _ => True
  | some r, k => InRange r.start r.limit k

/-- The put or delete of a batch call. -/
def callOp : BatchCall → Option StoreOp
  | .reset => none
  | .put k v => some (.put k v)
  | .del k => some (.del k)

end Coniks.Spec
