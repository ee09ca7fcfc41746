import Verif.Spec.Desk
/-
Direct messages, key servers and client programs on one machine (C91).
-/
namespace Coniks.Spec
open Coniks

/-- What happens on the machine apart from its terminals. -/
def machineEvents : List DeskEv → List HostEv
  | [] => []
  | .host e :: es => e :: machineEvents es
  | _ :: es => machineEvents es

/-- Nobody but the bot goes to the socket at `p`: no connection, and no client program registers there, neither one that is open on `D` nor one that
is opened later. -/
structure BotOnly (M : Machine) (p : Place) (D : Desk) (evs : List DeskEv) : Prop where
  conns : ∀ address rnd c, .host (.conn address rnd c) ∈ evs → ¬ LeadsTo M address (.unix p)
  open_ : ∀ u, ¬ LeadsTo M (D.terms u).conf.reg (.unix p)
  later : ∀ u k debug, .opened u k debug ∈ evs → ¬ LeadsTo M (CliConf.reg ⟨k.regAddress, k.address⟩) (.unix p)

end Coniks.Spec
