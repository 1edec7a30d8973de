import Verif.Model.Cisco

/-!
Model of capirca/lib/nsxv.py and capirca/lib/nsxt.py, which have much in common.

Rules are values instead of XML and JSON; of the comments only that they may make the XML of NSX-V ill-formed is kept.
-/

namespace Verif
namespace Nsx
open Policy Aclgenerator Nacaddr
open Cisco (leftover onPlatform hasDup)

/-- A term of a filter with its comments. -/
structure NTerm where
  term : Term
  expired : Bool := false
  comment : List Str := []

/-- A filter: is its header for the platform, and with which options; capirca/lib/nsxv.py:481-493, nsxt.py:430-442. -/
structure Filter where
  here : Bool := true
  options : List String := []
  terms : List NTerm := []

/-- A prefix as it is printed; nsxv.py:291-307 prints hosts without a length. -/
abbrev Pfx := Ver × Nat × Nat

/-- A service; capirca/lib/nsxv.py:378-436, nsxt.py:79-139. -/
structure Service where
  proto : Proto
  sport : List PortRange := []
  dport : List PortRange := []
  icmp : Option Nat := none
deriving DecidableEq, Repr

/-- A rule. Empty lists are missing elements (NSX-V), `ANY` (addresses of NSX-T) and missing or empty `service_entries`.
`families` is `ip_protocol` of NSX-T; capirca/lib/nsxv.py:366-376, nsxt.py:365-398. -/
structure Rule where
  name : Str
  action : String
  src : List Pfx
  dst : List Pfx
  services : List Service
  families : Option (List Ver)
  logged : Bool
deriving DecidableEq, Repr

/-- A section (NSX-V) or security policy (NSX-T); `scope` is `appliedTo`, in NSX-V that of every rule. -/
structure Section where
  id : Option String
  name : String
  scope : Option String
  rules : List Rule
deriving DecidableEq, Repr

/-! ### what both share -/

/-- The keys of `_ACTION_TABLE`, and its values; capirca/lib/nsxv.py:28-33. -/
def actionsV : List (String × String) :=
  [("accept", "allow"), ("deny", "deny"), ("reject", "reject"), ("reject-with-tcp-rst", "reject")]

/-- `_ACTION_TABLE`; capirca/lib/nsxt.py:27-32. -/
def actionsT : List (String × String) :=
  [("accept", "ALLOW"), ("deny", "DROP"), ("reject", "REJECT"), ("reject-with-tcp-rst", "REJECT")]

/-- `securitygroup` with what follows; capirca/lib/nsxv.py:585-596, nsxt.py:539-553. -/
def findGroup (err : Err) : List String → Except Err (Option String)
  | [] => .ok none
  | x :: xs =>
    if x = "securitygroup" then
      match xs with
      | [] => .error err
      | g :: _ => .ok (some g)
    else findGroup err xs

/-- What is read from the options of a header. -/
structure Target where
  name : String
  type : String
  id : Option String
  group : Option String

/-- The optional words after the type: an id unless the first is `securitygroup`; capirca/lib/nsxv.py:585-590. -/
def splitId : List String → Option String × List String
  | [] => (none, [])
  | x :: xs => if x = "securitygroup" then (none, x :: xs) else (some x, xs)

/-- `_ParseFilterOptions`; capirca/lib/nsxv.py:546-601, nsxt.py:505-558. -/
def parseOptions (err : Err) (opts : List String) : Except Err Target :=
  match opts with
  | name :: type :: rest =>
    if 5 < opts.length then .error err
    else if !["inet", "inet6", "mixed"].contains type then .error err
    else do
      let g ← findGroup err (splitId rest).2
      .ok ⟨name, type, (splitId rest).1, g⟩
  | _ => .error err

/-- A term with its family after the term loop. -/
structure PTerm where
  item : NTerm
  family : Ver

/-- The family a term is rendered for; capirca/lib/nsxv.py:520-542, nsxt.py:476-497. -/
def familyOf (type : String) (t : Term) : Ver :=
  if type = "inet" then .v4 else if type = "inet6" then .v6 else if t.protocol.contains "icmpv6" then .v6 else .v4

/-- The name of a family. -/
def afName (v : Ver) : String := if v = .v6 then "inet6" else "inet"

/-- The name with the limit of `FixTermLength`; capirca/lib/nsxv.py:518, nsxt.py:472, aclgenerator.py:461-502. -/
def fixName (s : Str) : Except Err Str := fixTermLength abbreviations 62 s false false

/-- The term loop for one term: `none` if it is left out; capirca/lib/nsxv.py:497-542, nsxt.py:449-503. The test for duplicate
names is in `prepareFilter`. -/
def prepare (actions : List (String × String)) (type : String) (n : NTerm) : Except Err (Option PTerm) :=
  if n.expired then .ok none
  else
    match n.term.action with
    | [] => .error .indexError
    | a :: _ =>
      match actions.lookup a with
      | none => .ok none
      | some _ => do
        let name ← fixName n.term.name
        let t ← fixHighPorts {} { n.term with name := name } (afName (familyOf type n.term)) false
        .ok (some ⟨{ n with term := t }, familyOf type n.term⟩)

/-- A filter with what is needed for printing it. -/
structure PFilter where
  target : Target
  terms : List PTerm

/-- One filter of the loop in `_TranslatePolicy`; capirca/lib/nsxv.py:480-544, nsxt.py:428-503. That the error of a duplicate name
may come after one of an earlier term is not modelled. -/
def prepareFilter (opts dup : Err) (actions : List (String × String)) (f : Filter) : Except Err PFilter := do
  let tg ← parseOptions opts f.options
  if hasDup (f.terms.map fun n => n.term.name) then .error dup
  else
    let os ← listM (prepare actions tg.type) f.terms
    .ok ⟨tg, os.filterMap id⟩

/-- Is the term left out, or refused, before its rule is composed? capirca/lib/nsxv.py:124-157, nsxt.py:163-194. -/
def early (platform : String) (err : Err) (v : Ver) (t : Term) : Except Err Bool :=
  if !onPlatform platform t then .ok true
  else if (v = .v6 && t.protocol.contains "icmp") || (v = .v4 && t.protocol.contains "icmpv6") then .ok true
  else if !t.verbatim.isEmpty then .error err
  else
    match t.option with
    | [] => .ok false
    | o :: _ => if startsWith "tcp-established" o || startsWith "established" o then .ok true else .error err

/-- The families a rule is for; capirca/lib/nsxv.py:196-201, nsxt.py:222-226. -/
def families (type : String) (v : Ver) : List Ver := if type = "mixed" then [.v4, .v6] else [v]

/-- The addresses of both families in both directions: those of one family go if the other direction has none of it; `none` if
nothing is left; capirca/lib/nsxv.py:253-272, nsxt.py:346-363. -/
def balance (s4 s6 d4 d6 : List Net) : Option (List Net × List Net) :=
  if (s4 ++ s6).isEmpty || (d4 ++ d6).isEmpty then some (s4 ++ s6, d4 ++ d6)
  else
    let r :=
      if !s4.isEmpty && d4.isEmpty then (s6, d4 ++ d6)
      else if !s6.isEmpty && d6.isEmpty then (s4, d4 ++ d6)
      else if !d4.isEmpty && s4.isEmpty then (s4 ++ s6, d6)
      else if !d6.isEmpty && s6.isEmpty then (s4 ++ s6, d4)
      else (s4 ++ s6, d4 ++ d6)
    if r.1.isEmpty || r.2.isEmpty then none else some r

/-- The addresses of a rule: only mixed filters compare the directions; capirca/lib/nsxv.py:253-272, nsxt.py:346-363. -/
def sides (type : String) (s4 s6 d4 d6 : List Net) : Option (List Net × List Net) :=
  if type = "mixed" then balance s4 s6 d4 d6 else some (s4 ++ s6, d4 ++ d6)

/-- A prefix. -/
def pfx (n : Net) : Pfx := (n.ver, n.addr, n.plen)

/-- The addresses of one family, nothing for a family the rule is not for; capirca/lib/nsxv.py:216-251, nsxt.py:278-283, 309-314. -/
def side (fams : List Ver) (v : Ver) (inc exc : List Net) : Except Err (List Net) :=
  if !fams.contains v || inc.isEmpty then .ok [] else leftover v inc exc

/-! ### NSX-V -/

/-- `self.PROTO_MAP.get(p, p)`; capirca/lib/nsxv.py:183-184. -/
def numberV (s : String) : Proto :=
  match protoMap.lookup s with
  | some n => .num n
  | none => .str s

/-- `if icmp_type`: the type 0 is not printed; capirca/lib/nsxv.py:399-404. -/
def printedType : Option Nat → Option Nat
  | some 0 => none
  | o => o

/-- `_ServiceToString`; capirca/lib/nsxv.py:378-436. -/
def servicesV (t : Term) (types : List (Option Nat)) (s : String) : List Service :=
  if numberV s = .str "any" then []
  else if numberV s = .num 1 ∨ numberV s = .num 58 then types.map fun ty => { proto := numberV s, icmp := printedType ty }
  else [{ proto := numberV s, sport := t.sourcePort, dport := t.destinationPort }]

/-- The numbers of the icmp-types; without protocols they are not looked at; capirca/lib/nsxv.py:182-191, nsxt.py:384-390. -/
def icmpTypes (v : Ver) (t : Term) : Except Err (List (Option Nat)) :=
  if t.protocol.isEmpty then .ok [none] else normalizeIcmpTypes t.icmpType t.protocol (.num v.num)

/-- The rule of a term; capirca/lib/nsxv.py:159-376. -/
def ruleV (type : String) (p : PTerm) : Except Err (Option Rule) := do
  let t := p.item.term
  let fams := families type p.family
  let types ← icmpTypes p.family t
  let s4 ← side fams .v4 t.sourceAddress t.sourceAddressExclude
  let s6 ← side fams .v6 t.sourceAddress t.sourceAddressExclude
  let d4 ← side fams .v4 t.destinationAddress t.destinationAddressExclude
  let d6 ← side fams .v6 t.destinationAddress t.destinationAddressExclude
  match sides type s4 s6 d4 d6 with
  | none => .ok none
  | some (s, d) =>
    .ok (some { name := t.name, action := (actionsV.lookup (t.action.head?.getD "")).getD "None",
                src := s.map pfx, dst := d.map pfx, services := t.protocol.flatMap (servicesV t types),
                families := none, logged := !t.logging.isEmpty })

/-- `Term.__str__`; capirca/lib/nsxv.py:112-376. -/
def renderV (type : String) (p : PTerm) : Except Err (Option Rule) := do
  let skip ← early "nsxv" (.raised "NsxvAclTermError") p.family p.item.term
  if skip then .ok none else ruleV type p

/-- The comments do not break the XML. Simplified: no `&` and no `<`, though markup in a comment may happen to be well-formed;
capirca/lib/nsxv.py:175-180, 652. -/
def plainComments (p : PTerm) : Bool := p.item.comment.all fun s => s.all fun c => c != '&' && c != '<'

/-- One turn of the loop in `__str__` without parsing: the rules, with their terms; capirca/lib/nsxv.py:629-647. -/
def printV (f : PFilter) : Except Err (List (PTerm × Option Rule)) :=
  listM (fun p => do
    let r ← renderV f.target.type p
    .ok (p, r)) f.terms

/-- The loop of `__str__`, in which the text so far is parsed in every turn: a second section makes it ill-formed;
capirca/lib/nsxv.py:613-653. Without any filter a variable is not set. -/
def printAllV : List PFilter → Except Err Section
  | [] => .error (.raised "UnboundLocalError")
  | f :: fs => do
    let rs ← printV f
    if rs.any fun x => x.2.isSome && !plainComments x.1 then .error (.raised "ExpatError")
    else
      match fs with
      | [] => .ok { id := f.target.id, name := f.target.name, scope := f.target.group, rules := rs.filterMap Prod.snd }
      | g :: _ => do
        let _ ← printV g
        .error (.raised "ExpatError")

/-- The generator; capirca/lib/nsxv.py:474-544, 603-653. -/
def translateV (fs : List Filter) : Except Err Section := do
  let ps ← listM (prepareFilter (.raised "UnsupportedNsxvAccessListError") (.raised "NsxvDuplicateTermError") actionsV)
    (fs.filter Filter.here)
  printAllV ps

/-- `_BuildTokens`; capirca/lib/nsxv.py:459-472. -/
def tablesV : Tables where
  platform := "nsxv"
  tokens := (baseTables "nsxv").tokens ++ ["logging"]
  subTokens := [("action", ["accept", "deny", "reject", "reject-with-tcp-rst"]), ("icmp_type", (icmp4 ++ icmp6).map Prod.fst)]
  warnOnly := warnIfUnsupported

/-! ### NSX-T -/

/-- `nacaddr.IP('0.0.0.0/32')`; capirca/lib/nsxt.py:248. -/
def zero : Net := { ver := .v4, addr := 0, plen := 32 }

/-- `'0.0.0.0/0' in [str(a) for a in …]`; capirca/lib/nsxt.py:263, 273, 295, 306. -/
def hasAny (l : List Net) : Bool := l.any fun n => n.ver == .v4 && n.addr == 0 && n.plen == 0

/-- IPv4 addresses without the excluded ones; 0.0.0.0 is excluded, too, if there are others or on demand; capirca/lib/nsxt.py:257-268,
290-301. -/
def without (strip : Bool) (a e : List Net) : Except Err (List Net) :=
  if !e.isEmpty then addressListExclude a (e ++ [zero]) true
  else if strip then addressListExclude a [zero] true
  else .ok a

/-- `GetAddressOfVersion`; capirca/lib/nsxt.py:252-255. -/
def ofVersion (v : Ver) (l : List Net) : List Net := l.filter fun n => n.ver == v

/-- `source_address` after the turn for IPv4; capirca/lib/nsxt.py:251-268. -/
def source4 (fams : List Ver) (t : Term) : Except Err (List Net) :=
  if !fams.contains .v4 || t.sourceAddress.isEmpty then .ok []
  else without (!(ofVersion .v4 t.sourceAddress).isEmpty && !hasAny (ofVersion .v4 t.sourceAddress))
    (ofVersion .v4 t.sourceAddress) (ofVersion .v4 t.sourceAddressExclude)

/-- `destination_address` after the turn for IPv4; 0.0.0.0 is left in depending on the source; capirca/lib/nsxt.py:286-301. -/
def dest4 (fams : List Ver) (src : List Net) (t : Term) : Except Err (List Net) :=
  if !fams.contains .v4 || t.destinationAddress.isEmpty then .ok []
  else without (!src.isEmpty && !hasAny src) (ofVersion .v4 t.destinationAddress) (ofVersion .v4 t.destinationAddressExclude)

/-- All IPv4 addresses are no addresses; capirca/lib/nsxt.py:269-281, 302-313. -/
def clearAny (l : List Net) : List Net := if hasAny l then [] else l

/-- `ServiceEntries.get`; capirca/lib/nsxt.py:99-139. Protocols other than icmp, icmpv6, tcp and udp have no entries. -/
def servicesT (t : Term) (types : List Nat) (s : String) : List Service :=
  match protoMap.lookup s with
  | none => []
  | some n =>
    if n = 1 ∨ n = 58 then
      if types.isEmpty then [{ proto := .num n }] else types.map fun k => { proto := .num n, icmp := some k }
    else if n = 6 ∨ n = 17 then [{ proto := .num n, sport := t.sourcePort, dport := t.destinationPort }]
    else []

/-- The rule of a term; capirca/lib/nsxt.py:213-400. -/
def ruleT (type : String) (p : PTerm) : Except Err (Option Rule) := do
  let t := p.item.term
  let fams := families type p.family
  let s4 ← source4 fams t
  let d4 ← dest4 fams s4 t
  let s6 ← side fams .v6 t.sourceAddress t.sourceAddressExclude
  let d6 ← side fams .v6 t.destinationAddress t.destinationAddressExclude
  match sides type (clearAny s4) s6 (clearAny d4) d6 with
  | none => .ok none
  | some (s, d) => do
    let types ← icmpTypes p.family t
    .ok (some { name := t.name, action := (actionsT.lookup (t.action.head?.getD "")).getD "None",
                src := s.map pfx, dst := d.map pfx, services := t.protocol.flatMap (servicesT t (types.filterMap id)),
                families := some fams, logged := !t.logging.isEmpty })

/-- `Term.__str__`; capirca/lib/nsxt.py:152-400. -/
def renderT (type : String) (p : PTerm) : Except Err (Option Rule) := do
  let skip ← early "nsxt" (.raised "NsxtAclTermError") p.family p.item.term
  if skip then .ok none else ruleT type p

/-- The scope of the policy; capirca/lib/nsxt.py:529, 545-549. `none` is `ANY`. -/
def scopeT (g : Option String) : Option String :=
  g.map fun s => if startsWith "/" s then s else "/infra/domains/default/groups/" ++ s

/-- `__str__`; capirca/lib/nsxt.py:560-602. -/
def printAllT : List PFilter → Except Err Section
  | [] => .error .indexError
  | [f] => do
    let rs ← listM (renderT f.target.type) f.terms
    .ok { id := some (f.target.id.getD f.target.name), name := f.target.name, scope := scopeT f.target.group, rules := rs.filterMap id }
  | _ => .error (.raised "NsxtUnsupportedManyPoliciesError")

/-- The generator; capirca/lib/nsxt.py:423-602. -/
def translateT (fs : List Filter) : Except Err Section := do
  let ps ← listM (prepareFilter (.raised "UnsupportedNsxtAccessListError") (.raised "NsxtDuplicateTermError") actionsT)
    (fs.filter Filter.here)
  printAllT ps

/-- The keywords; `_BuildTokens` is that of the base class; capirca/lib/aclgenerator.py:329-377. -/
def tablesT : Tables := baseTables "nsxt"

end Nsx
end Verif
