import Verif.Model.Cisco

/-!
Model of the whole configuration that capirca/lib/cisco.py and the generators derived from it print: the commands around the access lists.
-/

namespace Verif
namespace Cisco
open Policy

/-- A line of the configuration. Remarks and comments (lines with `!`) are not modelled, nor are the groups of ports, whose content follows from
their name. -/
inductive Out where
  /-- A command, by its words. -/
  | cmd (ws : List String)
  /-- An entry that is not indented. -/
  | top (l : Line)
  /-- An indented entry. -/
  | sub (l : Line)
  /-- An indented entry with references to groups. -/
  | subGroup (l : Sum (List GTok) String)
  /-- A network in a group. -/
  | member (addr len : Nat)
deriving DecidableEq

/-- `_FilterCmd`; capirca/lib/cisco.py:1287-1311. -/
def filterCmd (name : Str) : Kind → Except Err (List String)
  | .standard => .ok ["ip", "access-list", "standard", String.ofList name]
  | .extended | .objectGroup => .ok ["ip", "access-list", "extended", String.ofList name]
  | .inet6 | .objectGroup6 => .ok ["ipv6", "access-list", String.ofList name]
  | _ => .error (.raised "UnsupportedCiscoAccessListError")

/-- `_AppendTargetByFilterType`; capirca/lib/cisco.py:1313-1334, ciscoxr.py:29-53, cisconx.py:49-83, arista.py:43-83. `keep` is
`configure_replace_compatible`. The name is one word. -/
def headerCmds (c : Cfg) (name : Str) (k : Kind) (keep : Bool) : Except Err (List (List String)) :=
  let n := String.ofList name
  if c.platform = "ciscoxr" then
    if k = .inet6 ∨ k = .objectGroup6 then .ok [["no", "ipv6", "access-list", n], ["ipv6", "access-list", n]]
    else .ok [["no", "ipv4", "access-list", n], ["ipv4", "access-list", n]]
  else if c.platform = "cisconx" then
    if k = .extended ∨ k = .objectGroup then .ok [["no", "ip", "access-list", n], ["ip", "access-list", n]]
    else if k = .inet6 ∨ k = .objectGroup6 then .ok [["no", "ipv6", "access-list", n], ["ipv6", "access-list", n]]
    else .error (.raised "UnsupportedNXosAccessListError")
  else if c.platform = "arista" then
    if k = .standard then
      if numeric name then .ok [["no", "access-list", n]]
      else .ok [["no", "ip", "access-list", "standard", n], ["ip", "access-list", "standard", n]]
    else if k = .extended ∨ k = .objectGroup then .ok [["no", "ip", "access-list", n], ["ip", "access-list", n]]
    else if k = .inet6 then .ok [["no", "ipv6", "access-list", n], ["ipv6", "access-list", n]]
    else .error (.raised "UnsupportedEosAccessListError")
  else
    if k = .standard ∧ numeric name then .ok [["no", "access-list", n]]
    else (filterCmd name k).map fun cmd => if keep then [cmd] else ["no" :: cmd, cmd]

/-- The entries as they are printed: those of numbered standard lists are not indented; capirca/lib/cisco.py:139-194, 1380-1384. -/
def entryLines (a : Acl) : List Out :=
  a.lines.map (fun l => if a.kind = .standard ∧ numeric a.name then .top l else .sub l) ++ a.groupLines.map .subGroup

/-- The number of a family. -/
def afWord : Ver → String
  | .v4 => "ipv4"
  | .v6 => "ipv6"

/-- The networks groups of an access list, `str(obj_target)`; capirca/lib/cisco.py:235-265. -/
def groupLines (a : Acl) : List Out :=
  a.groups.flatMap fun g => .cmd ["object-group", "network", afWord g.af, g.name] ::
    (g.nets.map fun n => .member n.addr n.plen) ++ [.cmd ["exit"]]

/-- The commands and entries of one list; capirca/lib/cisco.py:1353-1391. -/
def listLines (c : Cfg) (a : Acl) (keep : Bool) : Except Err (List Out) := do
  let h ← headerCmds c a.name a.kind keep
  .ok (h.map .cmd ++ entryLines a ++ (if keep then [] else [.cmd ["exit"]]))

/-- `cisco_policies`, and whether `configure_replace_compatible` is among the options; capirca/lib/cisco.py:943-947, 958-1113. -/
def policies (c : Cfg) (fs : List (List String × List RTerm)) : Except Err (List (Acl × Bool)) :=
  concatM (fun f : List String × List RTerm => (renderFilter c f.1 f.2).map fun as =>
    as.map fun a => (a, f.1.contains "configure_replace_compatible")) fs

/-- One round of the loop of `__str__`: the groups go to the front, the list to the end; capirca/lib/cisco.py:1353-1391. -/
def addList (c : Cfg) (target : List Out) (p : Acl × Bool) : Except Err (List Out) := do
  let ls ← listLines c p.1 p.2
  .ok (groupLines p.1 ++ (target ++ ls))

/-- `for ... in self.cisco_policies`; capirca/lib/cisco.py:1353-1391. -/
def addLists (c : Cfg) : List Out → List (Acl × Bool) → Except Err (List Out)
  | target, [] => .ok target
  | target, p :: ps => do
    let t ← addList c target p
    addLists c t ps

/-- The configuration for a policy, `__str__`; capirca/lib/cisco.py:1347-1394. Without the option
`remove_duplicate_network_objectgroups`, for which see `CiscoDedup`. -/
def document (c : Cfg) (fs : List (List String × List RTerm)) : Except Err (List Out) := do
  let ps ← policies c fs
  addLists c [] ps

end Cisco
end Verif
