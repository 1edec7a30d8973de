import Verif.Model.Juniper
import Verif.Model.Versa

/-!
Model of capirca/lib/junipermsmpc.py.

The output is a value instead of text: groups with the terms of a stateful firewall rule, applications and sets of applications.
Comments, `apply-groups`, indentation and log messages are left out.
-/

namespace Verif
namespace Msmpc
open Policy Aclgenerator Nacaddr
open Srx (STerm)
open Juniper (minimizePrefixes)
open Versa (hasSub)

/-- A filter: is its header for the platform, and with which options; capirca/lib/junipermsmpc.py:468-473. -/
structure Filter where
  here : Bool := true
  options : List String := []
  terms : List STerm := []

/-- A prefix; `any-ipv4` and `any-ipv6` are those of length 0; capirca/lib/junipermsmpc.py:211-237. -/
abbrev Pfx := Ver × Nat × Nat

/-- A term of a rule. Empty lists of addresses are missing blocks; a missing `from` is one without conditions;
capirca/lib/junipermsmpc.py:193-310. -/
structure Rule where
  inactive : Bool := false
  name : Str
  src : List Pfx := []
  srcExcept : List Pfx := []
  dst : List Pfx := []
  dstExcept : List Pfx := []
  srcPrefix : List String := []
  srcPrefixExcept : List String := []
  dstPrefix : List String := []
  dstPrefixExcept : List String := []
  appSet : Option Str := none
  actions : List String := []
  syslog : Bool := false
deriving DecidableEq, Repr

/-- What is printed for a term; capirca/lib/junipermsmpc.py:101-107, 193-310. -/
inductive Out where
  | verbatim (ls : List String)
  | term (r : Rule)
deriving DecidableEq, Repr

/-- An entry of `self.applications`; capirca/lib/junipermsmpc.py:580-587, 602-604. -/
structure App where
  name : Str
  sport : List PortRange := []
  dport : List PortRange := []
  protos : List String := []
  types : List Nat := []
  codes : List Nat := []
  timeout : Option Nat := none
deriving DecidableEq, Repr

/-- An application of the output; `type`: `icmp-type` or `icmp6-type`; capirca/lib/junipermsmpc.py:406-447. -/
structure AppDef where
  name : Str
  proto : Option String := none
  sport : Option PortRange := none
  dport : Option PortRange := none
  type : Option Nat := none
  codes : List Nat := []
  timeout : Option Nat := none
deriving DecidableEq, Repr

/-! ### headers -/

/-- `_SUPPORTED_DIRECTION`; capirca/lib/junipermsmpc.py:327-331. -/
def directions : List (String × String) := [("", "input-output"), ("ingress", "input"), ("egress", "output")]

/-- The loop over the options, which gives the type and the direction; both are empty until they are found;
capirca/lib/junipermsmpc.py:485-512. -/
def optLoop : String → String → List String → Except Err (String × String)
  | af, dir, [] => .ok (if af = "" then "mixed" else af, if dir = "" then "input-output" else dir)
  | af, dir, o :: os =>
    if ["inet", "inet6", "mixed"].contains o then
      if af = "" then optLoop o dir os else .error (.raised "ConflictingTargetOptionsError")
    else
      match directions.lookup o with
      | some d => if dir = "" then optLoop af d os else .error (.raised "ConflictingTargetOptionsError")
      | none => .error (.raised "UnsupportedHeaderError")

/-- What a header says: name, type and direction; capirca/lib/junipermsmpc.py:471-512. -/
def header : List String → Except Err (String × String × String)
  | [] => .error .valueError
  | name :: rest => do
    let x ← optLoop "" "" (rest.erase "noverbose")
    .ok (name, x.1, x.2)

/-! ### terms -/

/-- `_SUPPORTED_PROTOCOL_NAMES`; capirca/lib/junipermsmpc.py:41-56. -/
def supported : List String :=
  ["ah", "egp", "esp", "gre", "icmp", "icmpv6", "igmp", "ipip", "ospf", "pim", "rsvp", "sctp", "tcp", "udp"]

/-- Other protocols become numbers; capirca/lib/junipermsmpc.py:66-69. -/
def number (s : String) : String :=
  if supported.contains s then s
  else
    match protoMap.lookup s with
    | some n => toString n
    | none => s

/-- `filter_name[:27] + term.name[-27:]`; capirca/lib/junipermsmpc.py:523-525, 290-297. -/
def setName (filter term : Str) : Str := filter.take 27 ++ term.drop (term.length - 27)

/-- `icmp_af_type`; capirca/lib/junipermsmpc.py:560-564. -/
def icmpAf (protocol : List String) : Af :=
  match protocol with
  | "icmp" :: _ => .name "inet"
  | "icmpv6" :: _ => .name "inet6"
  | _ => .name "unknown_af_icmp"

/-- The first `icmpv6` becomes `icmp6`; capirca/lib/junipermsmpc.py:569-574. -/
def renameIcmp : List String → List String
  | [] => []
  | s :: ss => if s = "icmpv6" then "icmp6" :: ss else s :: renameIcmp ss

/-- TCP and UDP without ports get those from 1; capirca/lib/junipermsmpc.py:575-579. -/
def portsOf (t : Term) : List PortRange :=
  if (t.protocol.contains "udp" || t.protocol.contains "tcp") && t.sourcePort.isEmpty && t.destinationPort.isEmpty then [(1, 65535)]
  else t.destinationPort

/-- The name of the first entry with the same items; capirca/lib/junipermsmpc.py:589-600. -/
def same (a : App) : List App → Except Err (Option Str)
  | [] => .ok none
  | s :: ss =>
    if { s with name := a.name } = a then .ok (some s.name)
    else if a.name = s.name then .error (.raised "ConflictingApplicationSetsError")
    else same a ss

/-- A term that is kept, with the name of its set of applications; capirca/lib/junipermsmpc.py:553-554, 594. -/
structure Kept where
  item : STerm
  set : Str

/-- The term after the changes that are made for this platform; capirca/lib/junipermsmpc.py:66-69, 537-539, 575-579. -/
def change (t : Term) : Term :=
  let u := { t with protocol := t.protocol.map number }
  { u with destinationPort := portsOf u, option := u.option.erase "inactive" }

/-- The entry of a term that has been changed; capirca/lib/junipermsmpc.py:565-587, 603. -/
def entry (filter : Str) (u : Term) (timeout : Option Nat) (types : List (Option Nat)) : App :=
  { name := setName filter u.name, sport := u.sourcePort, dport := u.destinationPort, protos := renameIcmp u.protocol,
    types := types.filterMap id, codes := u.icmpCode, timeout := timeout }

/-- The terms of a filter; `used` are the names so far; the flag beside a term is `term.inactive`;
capirca/lib/junipermsmpc.py:514-604. -/
def termsLoop (filter : Str) : List Str → List App → List STerm → Except Err (List (Bool × Kept) × List App)
  | _, apps, [] => .ok ([], apps)
  | used, apps, g :: gs =>
    if g.reply then termsLoop filter used apps gs
    else if g.term.option.contains "established" || g.term.option.contains "tcp-established" then termsLoop filter used apps gs
    else if used.contains g.term.name then .error (.raised "JuniperMSMPCFilterError")
    else if g.expired then termsLoop filter (g.term.name :: used) apps gs
    else do
      let u := change g.term
      let types ← normalizeIcmpTypes u.icmpType u.protocol (icmpAf u.protocol)
      let a := entry filter u g.timeout types
      let s ← same a apps
      let x ← termsLoop filter (g.term.name :: used) (if s.isNone then apps ++ [a] else apps) gs
      .ok ((g.term.option.contains "inactive", ⟨{ g with term := u }, s.getD a.name⟩) :: x.1, x.2)

/-! ### printing -/

/-- `GetAddressOfVersion`; capirca/lib/junipermsmpc.py:164-175. -/
def ofVersion (v : Ver) (l : List Net) : List Net := l.filter fun n => n.ver == v

/-- IPv6 prefixes of length 1 to 15 are printed as those of length 16 in them; capirca/lib/junipermsmpc.py:211-223, 229-237. -/
def expand (n : Net) : List Pfx :=
  if n.ver = .v6 ∧ 0 < n.plen ∧ n.plen < 16 then (List.range (2 ^ (16 - n.plen))).map fun i => (.v6, n.addr + i * 2 ^ 112, 16)
  else [(n.ver, n.addr, n.plen)]

/-- The term has addresses of the family; capirca/lib/junipermsmpc.py:128-143. -/
def has (v : Ver) (t : Term) : Bool :=
  !(ofVersion v t.sourceAddress).isEmpty || !(ofVersion v t.sourceAddressExclude).isEmpty ||
  !(ofVersion v t.destinationAddress).isEmpty || !(ofVersion v t.destinationAddressExclude).isEmpty

/-- `suffixes`; capirca/lib/junipermsmpc.py:145-156. -/
def suffixes (type : String) (t : Term) : List Ver :=
  if type = "mixed" then
    if has .v4 t && has .v6 t then [.v4, .v6] else if has .v6 t then [.v6] else [.v4]
  else if type = "inet6" then [.v6] else [.v4]

/-- The family is passed over for the protocols; in filters for one family the whole term is, which has no other family;
capirca/lib/junipermsmpc.py:158-163, 183-191. -/
def otherIcmp (type : String) (t : Term) (v : Ver) : Bool :=
  let has4 := t.protocol.contains "icmp"
  let has6 := t.protocol.contains "icmpv6"
  if type = "mixed" then
    !(has4 && has6) && has .v4 t && has .v6 t && ((has4 && v = .v6) || (has6 && v = .v4))
  else (has6 && !has4 && v = .v4) || (has4 && !has6 && v = .v6)

/-- `_ACTIONS`; capirca/lib/junipermsmpc.py:38. -/
def actions : List (String × String) := [("accept", "accept"), ("deny", "discard"), ("reject", "reject")]

/-- The actions of a term; capirca/lib/junipermsmpc.py:302-303. -/
def actionsOf : List String → Except Err (List String)
  | [] => .ok []
  | a :: as =>
    match actions.lookup a with
    | none => .error .typeError
    | some b => do
      let bs ← actionsOf as
      .ok (b :: bs)

/-- The name of what is printed for a family; capirca/lib/junipermsmpc.py:200-202. -/
def pieceName (dup : Bool) (name : Str) (v : Ver) : Str :=
  if dup then name ++ (if v = .v6 then "-inet6".toList else "-inet".toList) else name

/-- The addresses of a side as they are printed; capirca/lib/junipermsmpc.py:164-175, 207-271. -/
def side (v : Ver) (inc exc : List Net) : List Pfx × List Pfx :=
  let m := minimizePrefixes (ofVersion v inc) (ofVersion v exc)
  (m.1.flatMap expand, m.2.flatMap expand)

/-- A side has addresses, none of which is left; capirca/lib/junipermsmpc.py:176-182. -/
def gone (v : Ver) (inc exc : List Net) : Bool :=
  let m := minimizePrefixes (ofVersion v inc) (ofVersion v exc)
  m.1.isEmpty && !inc.isEmpty && m.2.isEmpty

/-- What is printed for a term and a family; capirca/lib/junipermsmpc.py:158-309. -/
def piece (type : String) (inactive dup : Bool) (k : Kept) (v : Ver) : Except Err (List Out) :=
  let t := k.item.term
  if otherIcmp type t v then .ok []
  else if gone v t.sourceAddress t.sourceAddressExclude || gone v t.destinationAddress t.destinationAddressExclude then .ok []
  else do
    let s := side v t.sourceAddress t.sourceAddressExclude
    let d := side v t.destinationAddress t.destinationAddressExclude
    let as ← actionsOf t.action
    .ok [.term {
      inactive := inactive
      name := pieceName dup t.name v
      src := s.1, srcExcept := s.2, dst := d.1, dstExcept := d.2
      srcPrefix := t.sourcePrefix, srcPrefixExcept := t.sourcePrefixExcept
      dstPrefix := t.destinationPrefix, dstPrefixExcept := t.destinationPrefixExcept
      appSet := if t.sourcePort.isEmpty && t.destinationPort.isEmpty && t.icmpType.isEmpty && t.protocol.isEmpty then none
        else some (k.set ++ "-app".toList)
      actions := as
      syslog := !t.logging.isEmpty && !t.logging.contains "disable" }]

/-- `[f(x) for x in l]`, joined; capirca/lib/junipermsmpc.py:158, 678-681. -/
def collect {α β : Type} (f : α → Except Err (List β)) : List α → Except Err (List β)
  | [] => .ok []
  | x :: xs => do
    let a ← f x
    let b ← collect f xs
    .ok (a ++ b)

/-- The term is for another platform; capirca/lib/junipermsmpc.py:74-79. -/
def elsewhere (t : Term) : Bool :=
  (!t.platform.isEmpty && !t.platform.contains "msmpc") || (!t.platformExclude.isEmpty && t.platformExclude.contains "msmpc")

/-- `Term.__str__`; capirca/lib/junipermsmpc.py:71-310. -/
def render (type : String) (x : Bool × Kept) : Except Err (List Out) :=
  let t := x.2.item.term
  if elsewhere t then .ok []
  else if !t.verbatim.isEmpty then .ok [.verbatim ((t.verbatim.filter fun e => e.1 == "msmpc").map Prod.snd)]
  else collect (piece type x.1 ((suffixes type t).length == 2) x.2) (suffixes type t)

/-! ### applications -/

/-- The name of an application; capirca/lib/junipermsmpc.py:402-403, 409-410, 440-442. -/
def appName (name : Str) (i : Nat) : Str := name ++ "-app".toList ++ (toString i).toList

/-- `xs or ['']`; capirca/lib/junipermsmpc.py:427-429. -/
def orNone {α : Type} (l : List α) : List (Option α) := if l.isEmpty then [none] else l.map some

/-- The timeout of an ICMP application; capirca/lib/junipermsmpc.py:395-398, 418-419. The reader keeps the digits as text, so that `0`
counts as a timeout in 395 and 437, but not after `int` in 418. -/
def icmpTimeout : Option Nat → Option Nat
  | none => some 60
  | some 0 => none
  | some n => some n

/-- Only TCP and UDP have ports; capirca/lib/junipermsmpc.py:433-436. -/
def ported : Option String → Bool
  | none => false
  | some s => hasSub "udp".toList s.toList || hasSub "tcp".toList s.toList

/-- The applications of an entry, without their names; capirca/lib/junipermsmpc.py:392-452. -/
def bodies (a : App) : List AppDef :=
  if !a.types.isEmpty then
    a.types.flatMap fun ty => a.protos.map fun p =>
      { name := [], proto := some p, type := some ty, codes := a.codes, timeout := icmpTimeout a.timeout }
  else
    ((orNone a.protos).flatMap fun p => (orNone a.sport).flatMap fun s => (orNone a.dport).map fun d =>
      ({ name := [], proto := p, sport := if ported p then s else none, dport := if ported p then d else none,
         timeout := a.timeout } : AppDef)).filter fun d => d.proto.isSome || d.timeout.isSome

/-- The applications of an entry; capirca/lib/junipermsmpc.py:392-452. -/
def defsOf (a : App) : List AppDef := (bodies a).zipIdx.map fun e => { e.1 with name := appName a.name (e.2 + 1) }

/-- The entry says something; capirca/lib/junipermsmpc.py:392. -/
def busy (a : App) : Bool := !a.protos.isEmpty || !a.sport.isEmpty || !a.dport.isEmpty || !a.types.isEmpty

/-- The entries that are printed, by name. No two are equal, so that the test for those that are done changes nothing;
capirca/lib/junipermsmpc.py:386-392. -/
def printed (apps : List App) : List App := (isort (fun x y => !PyStr.strLt y.name x.name) apps).filter busy

/-- A group of the output; capirca/lib/junipermsmpc.py:652-690. -/
structure Group where
  name : String
  direction : String
  terms : List Out := []
  apps : List AppDef := []
  sets : List (Str × List Str) := []
deriving DecidableEq, Repr

/-- A filter that has been translated; capirca/lib/junipermsmpc.py:606-607. -/
structure Done where
  name : String
  type : String
  direction : String
  terms : List (Bool × Kept)
  apps : List App

/-- `_TranslatePolicy` for one filter; capirca/lib/junipermsmpc.py:468-607. -/
def translateFilter (f : Filter) : Except Err Done := do
  let h ← header f.options
  let x ← termsLoop h.1.toList [] [] f.terms
  .ok ⟨h.1, h.2.1, h.2.2, x.1, x.2⟩

/-- `self.applications[filter_name]`, which the last filter of the name has set; capirca/lib/junipermsmpc.py:477, 685. -/
def appsFor (ds : List Done) (name : String) : List App :=
  match ds.filter (fun d => d.name == name) |>.getLast? with
  | none => []
  | some d => d.apps

/-- The group of a filter; capirca/lib/junipermsmpc.py:654-689. -/
def group (ds : List Done) (d : Done) : Except Err Group := do
  let ts ← collect (render d.type) d.terms
  let as := printed (appsFor ds d.name)
  .ok { name := d.name, direction := d.direction, terms := ts, apps := as.flatMap defsOf,
        sets := as.map fun a => (a.name ++ "-app".toList, (defsOf a).map AppDef.name) }

/-- The generator; capirca/lib/junipermsmpc.py:313-690. -/
def output (fs : List Filter) : Except Err (List Group) := do
  let ds ← listM translateFilter (fs.filter Filter.here)
  listM (group ds) ds

/-! ### keywords -/

/-- `_BuildTokens`; capirca/lib/junipermsmpc.py:341-363. -/
def tables : Tables where
  platform := "msmpc"
  tokens := (baseTables "msmpc").tokens ++ ["destination_prefix", "destination_prefix_except", "icmp_code", "logging", "owner",
    "source_prefix", "source_prefix_except", "target_resources"]
  subTokens := [("option", ["established", ".*", "tcp-established", "inactive"]),
    ("action", ["accept", "deny", "next", "reject", "reject-with-tcp-rst"]), ("icmp_type", (icmp4 ++ icmp6).map Prod.fst)]
  warnOnly := warnIfUnsupported

end Msmpc
end Verif
