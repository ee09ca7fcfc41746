import Verif.Model.Desk
import Verif.Spec.BotRun
/-
What a history of a machine looks like from one client program that talks to one server (C89).
-/
namespace Coniks.Spec
open Coniks Json

/-- This event of the machine asks some server for the registration, and it is not a line of terminal `u`: bytes sent over a connection, a direct message to
the bot, a command at another terminal. -/
def AsksElsewhere (X : Text) (u : Nat) (rnd : Option Bytes) (req : RegistrationRequest) : DeskEv → Prop
  | .host (.conn _ r c) => r = rnd ∧ ∃ buf, c.read = some buf ∧ unmarshalRequest goJson buf = some ⟨RegistrationType, .registration req⟩
  | .host (.dm m r _ _) => r = rnd ∧ Asks X m.sender m.text req.username req.key
  | .line v r l _ _ => r = rnd ∧ v ≠ u ∧ command (fields l) = .register req.username req.key
  | _ => False

/-- The event is one of terminal `u`, a new epoch or a new policy of process `pid`. -/
def Concerns (u pid : Nat) : DeskEv → Prop
  | .opened v _ _ => v = u
  | .line v _ _ _ _ => v = u
  | .ended v _ => v = u
  | .host (.epoch q) => q = pid
  | .host (.policies q _) => q = pid
  | _ => False

/-- `Aligned X u pid evs evs'`: `evs'` is the session of terminal `u` with the server of process `pid` inside the history `evs` of the machine. The lines of
`u`, the epochs and policies of `pid` appear one by one in their places; any other event appears as a registration it asks for, or not at all. -/
inductive Aligned (X : Text) (u pid : Nat) : List DeskEv → List NetEvent → Prop where
  | nil : Aligned X u pid [] []
  | line {rnd l T refused evs evs'} : Aligned X u pid evs evs' → Aligned X u pid (.line u rnd l T refused :: evs) (.line rnd l T :: evs')
  | ended {err evs evs'} : Aligned X u pid evs evs' → Aligned X u pid (.ended u err :: evs) (.ended err :: evs')
  | epoch {evs evs'} : Aligned X u pid evs evs' → Aligned X u pid (.host (.epoch pid) :: evs) (.dir .update :: evs')
  | policies {t evs evs'} : Aligned X u pid evs evs' → Aligned X u pid (.host (.policies pid t) :: evs) (.dir (.setPolicies t) :: evs')
  | asked {e rnd req evs evs'} : AsksElsewhere X u rnd req e → Aligned X u pid evs evs' → Aligned X u pid (e :: evs) (.dir (.register rnd req) :: evs')
  | other {e evs evs'} : ¬ Concerns u pid e → Aligned X u pid evs evs' → Aligned X u pid (e :: evs) evs'

/-- The number of new epochs, of all processes together. -/
def deskEpochs : List DeskEv → Nat
  | [] => 0
  | .host (.epoch _) :: es => deskEpochs es + 1
  | _ :: es => deskEpochs es

/-- The number of new epochs of one process. -/
def epochsOf (pid : Nat) : List DeskEv → Nat
  | [] => 0
  | .host (.epoch q) :: es => epochsOf pid es + if q = pid then 1 else 0
  | _ :: es => epochsOf pid es

/-- Entry `a` of a server answers at this address during the events `evs`: the address leads to what the entry asks for; and if that is a Unix socket, nobody
removes its file, and no other process had a socket there when the server was started on the machine `before`. -/
def AnswersAt (M : Machine) (before : Os) (address : Bytes) (a : AddressToml) (evs : List DeskEv) : Prop :=
  ∃ b, AsksFor M a b ∧ LeadsTo M address b ∧ ∀ p, b = .unix p → .host (.remove p) ∉ evs ∧ ∀ x ∈ before.socks, x.2 ≠ .unix p

/-- A machine that has just booted, with client programs at their terminals. -/
def freshDesk (files : Place → Bool) (terms : Nat → Terminal) : Desk := ⟨freshHost files, terms⟩

end Coniks.Spec
