import Verif.Model.Cisco

/-!
# Removal of duplicate object groups

capirca/lib/cisco.py:1119-1285. The code works on the printed text, line by line; the model works on the object
groups and access lists the text consists of (capirca/lib/cisco.py:1347-1391: all groups come before all lists).
Port groups and remarks are left out.
-/

namespace Verif
namespace Cisco

/-- A printed network group: its lines are ` address/length`; capirca/lib/cisco.py:252-265. -/
structure PGroup where
  name : String
  af : Ver
  nets : List (Nat × Nat)
deriving DecidableEq, Repr

/-- What `ObjectGroup.__str__` prints for a group; capirca/lib/cisco.py:259-265. -/
def printGroup (g : NetGroup) : PGroup := ⟨g.name, g.af, g.nets.map fun n => (n.addr, n.plen)⟩

/-- A printed access list: the words of its header and its entries. -/
structure PAcl where
  header : List String
  lines : List (List GTok)
deriving DecidableEq, Repr

/-- The configuration with all groups before all lists; capirca/lib/cisco.py:1347-1391. -/
structure Doc where
  groups : List PGroup
  acls : List PAcl
deriving DecidableEq, Repr

/-- The header of an object-group list: `_FilterCmd` and `_AppendTargetByFilterType`;
capirca/lib/cisco.py:1287-1311, ciscoxr.py:29-53, cisconx.py:49-83, arista.py:43-83. -/
def aclHeader (c : Cfg) (af : Ver) (name : String) : List String :=
  if af = .v6 then ["ipv6", "access-list", name]
  else if c.platform = "ciscoxr" then ["ipv4", "access-list", name]
  else if c.platform = "cisconx" ∨ c.platform = "arista" then ["ip", "access-list", name]
  else ["ip", "access-list", "extended", name]

/-- The family of a list according to `_replace_object_groups_references`; capirca/lib/cisco.py:1262-1271. -/
def inside : List String → Option Ver
  | "ip" :: "access-list" :: "extended" :: _ :: _ => some .v4
  | "ipv4" :: "access-list" :: _ :: _ => some .v4
  | "ipv6" :: "access-list" :: _ :: _ => some .v6
  | _ => none

/-- One group of `_get_duplicate_object_groups`: `seen` is `object_groups`, `dup` is
`duplicate_object_groups`, a later assignment in front; capirca/lib/cisco.py:1181-1200. -/
def dupStep (af : Ver) (st : List (List (Nat × Nat) × String) × List (String × String)) (g : PGroup) :
    List (List (Nat × Nat) × String) × List (String × String) :=
  if g.af = af then
    match st.1.lookup g.nets with
    | some first => (st.1, (g.name, first) :: st.2)
    | none => ((g.nets, g.name) :: st.1, st.2)
  else st

/-- `_get_duplicate_object_groups`; capirca/lib/cisco.py:1161-1200. -/
def dupGroups (af : Ver) (gs : List PGroup) : List (String × String) := (gs.foldl (dupStep af) ([], [])).2

/-- `_remove_object_groups`; capirca/lib/cisco.py:1202-1242. -/
def removeGroups (af : Ver) (dup : List (String × String)) (gs : List PGroup) : List PGroup :=
  gs.filter fun g => !(g.af == af && (dup.lookup g.name).isSome)

/-- A replaced reference; capirca/lib/cisco.py:1275-1280. -/
def renameTok (dup : List (String × String)) : GTok → GTok
  | .netGroup n => .netGroup ((dup.lookup n).getD n)
  | t => t

/-- `_replace_object_groups_references`; capirca/lib/cisco.py:1244-1285. -/
def replaceRefs (af : Ver) (dup : List (String × String)) (a : PAcl) : PAcl :=
  if inside a.header = some af then { a with lines := a.lines.map (·.map (renameTok dup)) } else a

/-- One family of `_remove_duplicate_objects`; capirca/lib/cisco.py:1149-1158. -/
def dedupFamily (d : Doc) (af : Ver) : Doc :=
  let dup := dupGroups af d.groups
  { groups := removeGroups af dup d.groups, acls := d.acls.map (replaceRefs af dup) }

/-- `_remove_duplicate_objects`; capirca/lib/cisco.py:1119-1159. -/
def dedup (d : Doc) : Doc := dedupFamily (dedupFamily d .v4) .v6

end Cisco
end Verif
