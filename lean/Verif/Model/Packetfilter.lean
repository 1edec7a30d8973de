import Verif.Model.Attrs

/-!
Model of capirca/lib/packetfilter.py.

The lines of rules are modelled by their parts. Comments and log messages are left out.
-/

namespace Verif
namespace Packetfilter
open Policy Aclgenerator Nacaddr

/-- A policy term; `expired`: `expiration` is set and not after the current date;
capirca/lib/packetfilter.py:516-523. -/
structure PTerm where
  term : Term
  expired : Bool := false

/-- An element of the list of addresses of a rule: `any`, `<table>` or `!<table>`;
capirca/lib/packetfilter.py:346-364. -/
inductive Target
  | any
  | table (name : String)
  | except (name : String)
deriving DecidableEq, Repr

/-- A rule; capirca/lib/packetfilter.py:265-330. `flags` are the letters before and after the slash, `types` the numbers of
`icmp-type` and `types6` those of `icmp6-type`. Empty lists and texts are not written. -/
structure Rule where
  action : String
  direction : String := ""
  quick : Bool := true
  log : Bool := false
  interface : Option String := none
  family : String := ""
  protos : List String := []
  src : List Target
  sport : List PortRange := []
  dst : List Target
  dport : List PortRange := []
  flags : Option (List Char × List Char) := none
  types : List Nat := []
  types6 : List Nat := []
  state : String := ""
deriving DecidableEq, Repr

/-- `_ACTION_TABLE`; capirca/lib/packetfilter.py:51-56. -/
def actions : List (String × String) :=
  [("accept", "pass"), ("deny", "block drop"), ("reject", "block return"), ("next", "pass")]

/-- `_TCP_FLAGS_TABLE`; capirca/lib/packetfilter.py:77-86. -/
def flagTable : List (String × String) :=
  [("syn", "S"), ("ack", "A"), ("fin", "F"), ("rst", "R"), ("urg", "U"), ("psh", "P"), ("all", "SAFRUP"), ("none", "NONE")]

/-- `token[:31]`; capirca/lib/packetfilter.py:354, 363, 387, 477. -/
def shorten (s : String) : String := String.ofList (s.toList.take 31)

/-- `_CheckAddressAf`: `none` stands for `['any']`. `filter_type` is one of `inet`, `inet6` and `mixed`;
capirca/lib/packetfilter.py:251-263. -/
def checkAf (af : String) (l : List Net) : Option (List Net) :=
  if l.isEmpty then none
  else if af = "mixed" then some l
  else some (l.filter fun n => n.ver == if af = "inet" then Ver.v4 else .v6)

/-- `_GenerateAddrStatement`. The code sorts the elements; capirca/lib/packetfilter.py:346-364. -/
def addrStatement (l : Option (List Net)) (exclude : List Net) : List Target :=
  ((match l with
    | none => [Target.any]
    | some l => l.map fun n => .table (shorten n.parent)) ++
   exclude.map fun n => .except (shorten n.parent)).eraseDups

/-- The numbers of the ICMP types; capirca/lib/packetfilter.py:180-192. -/
def icmpTypes (t : Term) (protocol : List String) : Except Err (List (Option Nat)) :=
  if t.icmpType.isEmpty then .ok [none]
  else if protocol = ["icmp"] then normalizeIcmpTypes t.icmpType protocol (.name "inet")
  else if protocol = ["icmpv6"] then normalizeIcmpTypes t.icmpType protocol (.name "inet6")
  else .error (.raised "UnsupportedFilterError")

/-- The flags that options name; capirca/lib/packetfilter.py:195-205. -/
def namedFlags (options : List String) : List String :=
  options.flatMap fun o => (flagTable.filter fun e => startsWith e.1 o).map Prod.snd

/-- The loop for `established`; capirca/lib/packetfilter.py:209-223. -/
def established (protocol : List String) : List String → List String → Except Err (List String)
  | set, [] => .ok set
  | set, o :: os =>
    if o = "established" ∨ o = "tcp-established" then
      if !set.isEmpty then .error (.raised "UnsupportedFilterError")
      else established protocol (if protocol.isEmpty || protocol.contains "tcp" then ["A"] else set) os
    else established protocol set os

/-- `''.join`; capirca/lib/packetfilter.py:305. -/
def join (l : List String) : List Char := l.flatMap String.toList

/-- The flags of a rule; capirca/lib/packetfilter.py:194-237, 303-305. -/
def flags (stateful : Bool) (protocol options : List String) : Except Err (Option (List Char × List Char)) :=
  if !(namedFlags options).isEmpty && protocol != ["tcp"] then .error (.raised "UnsupportedFilterError")
  else do
    let set ← established protocol (namedFlags options) options
    .ok (if (protocol.isEmpty || protocol == ["tcp"]) && stateful && set.isEmpty then some (['S'], ['S', 'A'])
      else if set.isEmpty then none
      else some (join set, join set))

/-- `_GenerateProtoStatement`: a number cannot be joined; capirca/lib/packetfilter.py:332-344. -/
def protoStatement (ps : List Proto) : Except Err (List String) :=
  if ps.contains (.str "hopopt") then .error (.raised "UnsupportedProtoError")
  else if ps.any fun p => match p with | .num _ => true | .str _ => false then .error .typeError
  else .ok (ps.map fun p => if p = .str "icmpv6" then "ipv6-icmp" else p.text)

/-- A term with what `Term(...)` gets; capirca/lib/packetfilter.py:92-115, 528-540. -/
structure Ready where
  term : Term
  protocol : List Proto
  stateful : Bool
  af : String
  direction : String
  interface : Option String

/-- The numbers that are printed; capirca/lib/packetfilter.py:307-317. -/
def numbers (protocol : List String) (s : String) (types : List (Option Nat)) : List Nat :=
  if protocol.contains s then types.filterMap id else []

/-- The state of a rule; capirca/lib/packetfilter.py:322-325. -/
def stateOf (stateful : Bool) (action : String) : String :=
  if !stateful then "no state" else if ["accept", "next"].contains action then "keep state" else ""

/-- The rest of `__str__` once action and addresses are known; capirca/lib/packetfilter.py:171-249, 265-330. -/
def rule (r : Ready) (action verdict : String) (src dst : Option (List Net)) : Except Err Rule := do
  let types ← icmpTypes r.term (r.protocol.map Proto.text)
  let fl ← flags r.stateful (r.protocol.map Proto.text) r.term.option
  let ps ← protoStatement r.protocol
  .ok {
    action := verdict, direction := r.direction, quick := action != "next", log := !r.term.logging.isEmpty
    interface := r.interface, family := if r.af = "mixed" then "" else r.af, protos := ps
    src := addrStatement src r.term.sourceAddressExclude, sport := r.term.sourcePort
    dst := addrStatement dst r.term.destinationAddressExclude, dport := r.term.destinationPort
    flags := fl, types := numbers (r.protocol.map Proto.text) "icmp" types
    types6 := numbers (r.protocol.map Proto.text) "icmpv6" types
    state := stateOf r.stateful action }

/-- The term is for other platforms; capirca/lib/packetfilter.py:122-127. -/
def elsewhere (t : Term) : Bool :=
  (!t.platform.isEmpty && !t.platform.contains "packetfilter") ||
  (!t.platformExclude.isEmpty && t.platformExclude.contains "packetfilter")

/-- `Term.__str__`; `_SetDefaultAction` fails on a term without an action; capirca/lib/packetfilter.py:117-249, 376-379. -/
def render (r : Ready) : Except Err (Option Rule) :=
  if elsewhere r.term then .ok none
  else match r.term.action with
    | [] => .error .indexError
    | a :: _ => match actions.lookup a with
      | none => .error (.raised "UnsupportedFilterError")
      | some v =>
        if checkAf r.af r.term.sourceAddress = some [] || checkAf r.af r.term.destinationAddress = some [] then .ok none
        else do
          let x ← rule r a v (checkAf r.af r.term.sourceAddress) (checkAf r.af r.term.destinationAddress)
          .ok (some x)

/-- `def_short_to_long` and `address_book`: short name, long name, networks; capirca/lib/packetfilter.py:416-418. -/
abbrev Book := List (String × String × List Net)

/-- One address is entered. The code keeps a set: networks are equal if family, address and length are;
capirca/lib/packetfilter.py:476-512. -/
def enter (b : Book) (n : Net) : Except Err Book :=
  match b.lookup (shorten n.parent) with
  | none => .ok (b ++ [(shorten n.parent, n.parent, [n])])
  | some (long, _) =>
    if long ≠ n.parent then .error (.raised "DuplicateShortenedTableNameError")
    else .ok (b.map fun e =>
      if e.1 = shorten n.parent then
        (e.1, e.2.1, if e.2.2.any fun m => m.ver == n.ver && m.addr == n.addr && m.plen == n.plen then e.2.2 else e.2.2 ++ [n])
      else e)

/-- The addresses of a term, one after the other; capirca/lib/packetfilter.py:476-512. -/
def enterAll : Book → List Net → Except Err Book
  | b, [] => .ok b
  | b, n :: ns => do
    let c ← enter b n
    enterAll c ns

/-- Direction and interface of a term; capirca/lib/packetfilter.py:528-537. -/
def place (direction : String) (t : Term) : String × Option String :=
  match t.destinationInterface, t.sourceInterface with
  | some i, _ => ("out", some i)
  | none, some i => ("in", some i)
  | none, none => (direction, none)

/-- `self._TERM(...)`; capirca/lib/packetfilter.py:525-540, aclgenerator.py:121-133. -/
def ready (stateful : Bool) (af direction : String) (t : Term) : Except Err Ready :=
  if t.destinationInterface.isSome && t.sourceInterface.isSome then .error (.raised "Error")
  else do
    let ps ← termProtocols (t.protocol.map .str)
    .ok ⟨t, ps, stateful, af, (place direction t).1, (place direction t).2⟩

/-- The terms of a filter; `names` are the names so far; capirca/lib/packetfilter.py:466-540. -/
def termsLoop (stateful : Bool) (af direction : String) : List Str → Book → List PTerm → Except Err (Book × List Ready)
  | _, b, [] => .ok (b, [])
  | names, b, g :: gs => do
    let name ← fixTermLength abbreviations 62 g.term.name false false
    if names.contains name then .error (.raised "DuplicateTermError")
    else do
      let b' ← enterAll b (g.term.sourceAddress ++ g.term.destinationAddress)
      if g.expired then termsLoop stateful af direction (name :: names) b' gs
      else do
        let r ← ready stateful af direction g.term
        let q ← termsLoop stateful af direction (name :: names) b' gs
        .ok (q.1, r :: q.2)

/-- A filter of the platform: the options after the name, and the terms; capirca/lib/packetfilter.py:426-434. -/
structure Filter where
  options : List String := []
  terms : List PTerm := []

/-- The address family of a filter; capirca/lib/packetfilter.py:451-462. -/
def filterType (options : List String) : Except Err String :=
  match ["inet", "inet6", "mixed"].filter options.contains with
  | [] => .ok "inet"
  | [a] => .ok a
  | _ => .error (.raised "UnsupportedFilterError")

/-- The direction of a filter; capirca/lib/packetfilter.py:433, 446-449. -/
def directionOf (options : List String) : String :=
  if options.contains "in" then "in" else if options.contains "out" then "out" else ""

/-- `_TranslatePolicy` for the filters of the platform; capirca/lib/packetfilter.py:414-542. -/
def translate : Bool → Book → List Filter → Except Err (Book × List (List Ready))
  | _, b, [] => .ok (b, [])
  | stateful, b, f :: fs =>
    if f.options.any fun o => !["inet", "inet6", "mixed", "in", "out", "nostate"].contains o then
      .error (.raised "UnsupportedTargetOptionError")
    else do
      let af ← filterType f.options
      let x ← termsLoop (stateful && !f.options.contains "nostate") af (directionOf f.options) [] b f.terms
      let q ← translate (stateful && !f.options.contains "nostate") x.1 fs
      .ok (q.1, x.2 :: q.2)

/-- The output: tables and rules; the code sorts the tables by name and the networks of a table;
capirca/lib/packetfilter.py:544-578. -/
structure Output where
  tables : List (String × List Net)
  rules : List Rule
deriving DecidableEq, Repr

/-- The generator for the filters of the platform; capirca/lib/packetfilter.py:414-578. -/
def output (fs : List Filter) : Except Err Output := do
  let x ← translate true [] fs
  let rs ← listM render x.2.flatten
  .ok ⟨x.1.map fun e => (e.1, e.2.2), rs.filterMap id⟩

/-- `_BuildTokens`; capirca/lib/packetfilter.py:391-412. -/
def tables : Tables where
  platform := "packetfilter"
  tokens := (baseTables "packetfilter").tokens ++ ["logging", "destination_interface", "source_interface"]
  subTokens := [("option", ["established", "tcp-established", "syn", "ack", "fin", "rst", "urg", "psh", "all"]),
    ("action", ["accept", "deny", "reject", "next"]), ("icmp_type", (icmp4 ++ icmp6).map Prod.fst)]
  warnOnly := warnIfUnsupported

end Packetfilter
end Verif
