import Verif.Model.CiscoDoc

/-!
What a router does with the lines of a configuration that is entered: which access lists and which groups it has afterwards.
-/

namespace Verif.Spec.CiscoDevice
open Verif Verif.Cisco

/-- An entry of an access list. -/
abbrev Entry := Sum Line (Sum (List GTok) String)

/-- Where the next indented line belongs. -/
inductive Mode where
  | none
  | list (v : Ver) (name : String)
  | group (v : Ver) (name : String)

/-- The access lists and groups of a device. A list that does not exist is empty. -/
structure State where
  lists : Ver → String → List Entry
  groups : Ver → String → List (Nat × Nat)
  mode : Mode

/-- The list is changed. -/
def State.setList (d : State) (v : Ver) (n : String) (l : List Entry) : State :=
  { d with lists := fun v' n' => if v' = v ∧ n' = n then l else d.lists v' n' }

/-- The devices that take the name of an IPv4 list without a type. -/
def Typeless (platform : String) : Prop := platform = "cisconx" ∨ platform = "arista"

/-- The devices that take the type before the name of an IPv4 list. -/
def Typed (platform type : String) : Prop :=
  platform ≠ "ciscoxr" ∧ platform ≠ "cisconx" ∧ (type = "standard" ∨ (type = "extended" ∧ platform ≠ "arista"))

instance (p : String) : Decidable (Typeless p) := inferInstanceAs (Decidable (_ ∨ _))
instance (p t : String) : Decidable (Typed p t) := inferInstanceAs (Decidable (_ ∧ _ ∧ _))

/-- The device with platform `platform` reads a line. Commands and entries that it does not know have no effect. Entering a list or group
that exists goes on with its content. Lists of the same name but of different types are taken to be the same. -/
def readLine (platform : String) (d : State) : Out → State
  | .cmd ["no", "access-list", n] => if platform = "ciscoxr" then d else { d.setList .v4 n [] with mode := .none }
  | .cmd ["no", "ip", "access-list", n] => if Typeless platform then { d.setList .v4 n [] with mode := .none } else d
  | .cmd ["no", "ipv4", "access-list", n] => if platform = "ciscoxr" then { d.setList .v4 n [] with mode := .none } else d
  | .cmd ["no", "ip", "access-list", t, n] => if Typed platform t then { d.setList .v4 n [] with mode := .none } else d
  | .cmd ["no", "ipv6", "access-list", n] => { d.setList .v6 n [] with mode := .none }
  | .cmd ["ip", "access-list", n] => if Typeless platform then { d with mode := .list .v4 n } else d
  | .cmd ["ipv4", "access-list", n] => if platform = "ciscoxr" then { d with mode := .list .v4 n } else d
  | .cmd ["ip", "access-list", t, n] => if Typed platform t then { d with mode := .list .v4 n } else d
  | .cmd ["ipv6", "access-list", n] => { d with mode := .list .v6 n }
  | .cmd ["object-group", "network", "ipv4", n] => { d with mode := .group .v4 n }
  | .cmd ["object-group", "network", "ipv6", n] => { d with mode := .group .v6 n }
  | .cmd ["exit"] => { d with mode := .none }
  | .top (.ace (.w "access-list" :: .w n :: e)) =>
    if platform = "ciscoxr" then d
    else { d.setList .v4 n (d.lists .v4 n ++ [.inl (.ace (.w "access-list" :: .w n :: e))]) with mode := .none }
  | .sub l => match d.mode with
    | .list v n => d.setList v n (d.lists v n ++ [.inl l])
    | _ => d
  | .subGroup l => match d.mode with
    | .list v n => d.setList v n (d.lists v n ++ [.inr l])
    | _ => d
  | .member a l => match d.mode with
    | .group v n => { d with groups := fun v' n' => if v' = v ∧ n' = n then d.groups v n ++ [(a, l)] else d.groups v' n' }
    | _ => d
  | _ => d

/-- The device after a configuration. -/
def loaded (platform : String) (d : State) (ls : List Out) : State := ls.foldl (readLine platform) d

/-- The family of an access list. -/
def family (a : Acl) : Ver := if a.kind = .inet6 ∨ a.kind = .objectGroup6 then .v6 else .v4

/-- The entries of an access list. -/
def entries (a : Acl) : List Entry := a.lines.map .inl ++ a.groupLines.map .inr

/-- The two have the same family and name. -/
def Same (a b : Acl) : Prop := family a = family b ∧ a.name = b.name

end Verif.Spec.CiscoDevice
