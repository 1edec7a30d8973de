import Verif.Model.Srx

/-!
Model of capirca/lib/versa.py.

The output is a value instead of text: rules, addresses, groups of addresses and services. Comments and log messages are left out.
-/

namespace Verif
namespace Versa
open Policy Aclgenerator Nacaddr PyStr
open Srx (STerm admitted parts byteLength)

/-- A policy term with the attributes that only this generator knows; those of `base` that versa.py does not read are ignored,
`apps`: `versa_application`; capirca/lib/versa.py:525-587. -/
structure VTerm where
  base : STerm
  apps : List String := []

/-- A filter: is its header for the platform, and with which options; capirca/lib/versa.py:454-459. -/
structure Filter where
  here : Bool := true
  options : List String := []
  terms : List VTerm := []

/-- The names in the output that the headers set; capirca/lib/versa.py:377-379. -/
structure Names where
  template : String := "_templatename"
  tenant : String := "_tenantname"
  policy : String := "_policyname"
deriving DecidableEq, Repr

/-- `source` or `destination` of a rule; capirca/lib/versa.py:186-229. -/
structure Side where
  zones : List String
  group : Option Str := none
  negate : Bool := false
deriving DecidableEq, Repr

/-- A rule; `act` is the action and what is logged; capirca/lib/versa.py:293-325. -/
structure VRule where
  name : Str
  src : Option Side := none
  dst : Option Side := none
  services : List Str := []
  predefined : List String := []
  dscp : List String := []
  act : Option (String × String) := none
deriving DecidableEq, Repr

/-- An entry of `self.applications`; capirca/lib/versa.py:641-661. -/
structure App where
  name : Str
  sport : List PortRange := []
  dport : List PortRange := []
  protos : List String := []
deriving DecidableEq, Repr

/-- `self.addressbook`: groups of numbered addresses. The code has the number as text, and a list with one address for each;
capirca/lib/versa.py:371, 729-741. -/
abbrev Book := List (Str × List (Nat × Net))

/-! ### headers -/

/-- `w in s`; capirca/lib/versa.py:484, 505, 544, 625. -/
def hasSub (w s : Str) : Bool :=
  match s with
  | [] => w.isEmpty
  | c :: cs => w.isPrefixOf (c :: cs) || hasSub w cs

/-- `HeaderParams`; capirca/lib/versa.py:407-426. -/
def Names.set (n : Names) (k v : String) : Names :=
  if v = "" then n
  else if k = "template" then { n with template := v }
  else if k = "tenant" then { n with tenant := v }
  else { n with policy := v }

/-- The loop over the options after the zones; `af` is empty until a family is found; capirca/lib/versa.py:490-510, 516-517. -/
def optLoop : Names → String → List String → Except Err (Names × String)
  | n, af, [] => .ok (n, if af = "" then "mixed" else af)
  | n, af, o :: rest =>
    if ["template", "tenant", "policy"].contains o then
      match rest with
      | [] => .error .indexError
      | v :: rest => optLoop (n.set o v) af rest
    else if ["inet", "inet6", "mixed"].contains o then
      if af = "" then optLoop n o rest else .error (.raised "ConflictingTargetOptionsError")
    else if hasSub "noverbose".toList o.toList then optLoop n af rest
    else .error (.raised "UnsupportedHeaderError")

/-- `_SUPPORTED_TARGET_OPTIONS`; capirca/lib/versa.py:348-350. -/
def reserved : List String := ["address-book-zone", "address-book-global", "noverbose"]

/-- What a header says: the zones, the family and the names; capirca/lib/versa.py:462-517. -/
def header (n : Names) : List String → Except Err (String × String × String × Names)
  | f :: a :: t :: b :: rest =>
    if f ≠ "from-zone" ∨ t ≠ "to-zone" then .error (.raised "UnsupportedFilterError")
    else if reserved.contains a || reserved.contains b then .error (.raised "UnsupportedFilterError")
    else if hasSub "address-book".toList (rest.map String.toList).flatten then .error (.raised "UnsupportedFilterError")
    else do
      let x ← optLoop n "" rest
      .ok (a, b, x.2, x.1)
  | _ => .error (.raised "UnsupportedFilterError")

/-! ### terms -/

/-- `_FixLargePolices`, the same as in junipersrx.py. The code shares the lists of protocols and applications among the parts of a
term, the model copies them; capirca/lib/versa.py:666-727. -/
def fixLarge (af : String) (gs : List VTerm) : List VTerm :=
  gs.flatMap fun g => if byteLength af g.base.term > 1023 then (parts g.base).map fun b => { g with base := b } else [g]

/-- The term is for another platform; capirca/lib/versa.py:527-532. -/
def elsewhere (t : Term) : Bool :=
  (!t.platform.isEmpty && !t.platform.contains "versa") || (!t.platformExclude.isEmpty && t.platformExclude.contains "versa")

/-- The term has something that is refused. `icmpv6` has no blank, so that it is in the joined protocols if it is in one;
capirca/lib/versa.py:534-547. -/
def refused (g : STerm) : Bool :=
  g.counter || !g.term.icmpType.isEmpty || g.term.protocol.any fun s => hasSub "icmpv6".toList s.toList

/-- The term is for replies or for established connections; capirca/lib/versa.py:549-558. -/
def replies (g : STerm) : Bool := g.reply || g.term.option.contains "established" || g.term.option.contains "tcp-established"

/-- An address is added to a group; capirca/lib/versa.py:736-740. -/
def put (z : Str) (e : Nat × Net) : Book → Book
  | [] => [(z, [e])]
  | x :: xs => if x.1 = z then (z, x.2 ++ [e]) :: xs else x :: put z e xs

/-- The number is taken in the group; capirca/lib/versa.py:738. -/
def taken (b : Book) (z : Str) (c : Nat) : Bool := b.any fun x => x.1 == z && x.2.any fun e => e.1 == c

/-- `_BuildAddressBook`; capirca/lib/versa.py:729-741. -/
def enter (z : Str) (s : Book × Nat) (a : Net) : Book × Nat :=
  if taken s.1 z s.2 then s else (put z (s.2, a) s.1, s.2 + 1)

/-- The addresses of a side; capirca/lib/versa.py:601-603, 617-619. -/
def enterAll (z : Str) (s : Book × Nat) (l : List Net) : Book × Nat := l.foldl (enter z) s

/-- The protocols and the applications, with ICMP as an application; capirca/lib/versa.py:625-627. `icmpv6` has been refused before,
so that lines 636-640 change nothing. -/
def icmpOut (protos apps : List String) : Except Err (List String × List String) :=
  if protos.any fun s => hasSub "icmp".toList s.toList then
    if protos.contains "icmp" then .ok (protos.erase "icmp", apps ++ ["ICMP"]) else .error .valueError
  else .ok (protos, apps)

/-- The entry is new: `false` if there is one with the same items; capirca/lib/versa.py:648-657. -/
def isNew (a : App) : List App → Except Err Bool
  | [] => .ok true
  | s :: ss =>
    if s.sport = a.sport ∧ s.dport = a.dport ∧ s.protos = a.protos then .ok false
    else if a.name = s.name then .error (.raised "ConflictingApplicationSetsError")
    else isNew a ss

/-- The entries afterwards, and is there one for the term; capirca/lib/versa.py:641-662. -/
def place (a : App) (apps : List App) : Except Err (List App × Bool) :=
  if a.sport.isEmpty && a.dport.isEmpty && a.protos.isEmpty then .ok (apps, false)
  else do
    let new ← isNew a apps
    .ok (if new then apps ++ [a] else apps, new)

/-- The zones of a side; capirca/lib/versa.py:171-179. -/
def zonesOf (own : List String) (z : String) : List String := if own.isEmpty then (if z = "all" then [] else [z]) else own

/-- A side of the rule; nothing if there are no zones. The group has been made before; capirca/lib/versa.py:186-229, 312-316. -/
def sideOf (zones : List String) (group : Str) (inc exc : List Net) : Option Side :=
  if zones.isEmpty then none
  else some ⟨zones, if inc.isEmpty then none else some group, !inc.isEmpty && !exc.isEmpty⟩

/-- `BuildTermDscp`: values that are not from 0 to 63 are left out; capirca/lib/versa.py:256-268. -/
def dscpOf : List String → Except Err (List String)
  | [] => .ok []
  | d :: ds =>
    match pyInt d.toList with
    | none => .error .valueError
    | some n => do
      let r ← dscpOf ds
      .ok (if 0 ≤ n ∧ n ≤ 63 then d :: r else r)

/-- `lef`; capirca/lib/versa.py:279-289. -/
def eventOf : List String → String
  | [] => "never"
  | s :: _ => if s.toList.map Char.toLower = "true".toList then "start" else if s = "log-both" then "both" else "never"

/-- `set`; capirca/lib/versa.py:270-291, 324-325. -/
def actOf (t : Term) : Option (String × String) :=
  match t.action with
  | [] => none
  | a :: _ => some (if a = "accept" then "allow" else a, eventOf t.logging)

/-- The name of a service; capirca/lib/versa.py:241, 849. -/
def serviceName (name : Str) (i : Nat) : Str := name ++ "-app".toList ++ (toString i).toList

/-- What the terms leave behind; capirca/lib/versa.py:369-379. -/
structure State where
  names : Names := {}
  book : Book := []
  apps : List App := []
  rules : List VRule := []

/-- A term that is rendered; `c` is the number of the next address; capirca/lib/versa.py:576-662. -/
def step (af a b : String) (st : State) (c : Nat) (g : VTerm) (name : Str) : Except Err (State × Nat) :=
  let t := g.base.term
  if !t.sourceAddressExclude.isEmpty && t.sourceAddress.isEmpty then .error (.raised "VersaUnsupportedTerm")
  else if !t.destinationAddressExclude.isEmpty && t.destinationAddress.isEmpty then .error (.raised "VersaUnsupportedTerm")
  else
    let src := admitted af t.sourceAddress
    let dst := admitted af t.destinationAddress
    if !t.sourceAddress.isEmpty && src.isEmpty then .ok (st, c)
    else
      let b1 := enterAll ("src-".toList ++ name) (st.book, c) src
      if !t.destinationAddress.isEmpty && dst.isEmpty then .ok ({ st with book := b1.1 }, b1.2)
      else do
        let b2 := enterAll ("dest-".toList ++ name) b1 dst
        let ps ← icmpOut t.protocol g.apps
        let ap ← place ⟨name, t.sourcePort, t.destinationPort, ps.1⟩ st.apps
        let dscp ← dscpOf t.dscpMatch
        let r : VRule := {
          name := name
          src := sideOf (zonesOf t.sourceZone a) ("src-".toList ++ name) src t.sourceAddressExclude
          dst := sideOf (zonesOf t.destinationZone b) ("dest-".toList ++ name) dst t.destinationAddressExclude
          services := if ap.2 then (List.range ps.1.length).map fun j => serviceName name (j + 1) else []
          predefined := ps.2
          dscp := dscp
          act := actOf t }
        .ok ({ st with book := b2.1, apps := ap.1, rules := st.rules ++ [r] }, b2.2)

/-- The terms of a filter; `used` are the names so far; capirca/lib/versa.py:525-662. -/
def termsLoop (af a b : String) : List Str → State → Nat → List VTerm → Except Err State
  | _, st, _, [] => .ok st
  | used, st, c, g :: gs =>
    if elsewhere g.base.term then termsLoop af a b used st c gs
    else if refused g.base then .error (.raised "VersaUnsupportedTerm")
    else if replies g.base then termsLoop af a b used st c gs
    else do
      let name ← fixTermLength abbreviations 62 g.base.term.name false false
      if used.contains name then .error (.raised "VersaDuplicateTermError")
      else if g.base.expired then termsLoop af a b (name :: used) st c gs
      else do
        let x ← step af a b st c g name
        termsLoop af a b (name :: used) x.1 x.2 gs

/-- `_TranslatePolicy`; capirca/lib/versa.py:428-664. -/
def translate : State → List Filter → Except Err State
  | st, [] => .ok st
  | st, f :: fs =>
    if f.here then do
      let h ← header st.names f.options
      let st' ← termsLoop h.2.2.1 h.1 h.2.1 [] { st with names := h.2.2.2 } 0 (fixLarge h.2.2.1 f.terms)
      translate st' fs
    else translate st fs

/-! ### output -/

/-- A service; capirca/lib/versa.py:820-850. -/
structure Service where
  name : Str
  proto : Str
  sport : List PortRange := []
  dport : List PortRange := []
deriving DecidableEq, Repr

/-- The protocols of an entry, `['']` if there are none; capirca/lib/versa.py:820. -/
def protosOf (a : App) : List String := if a.protos.isEmpty then [""] else a.protos

/-- `GenerateApplications`: the number goes on through all entries, which come by name; capirca/lib/versa.py:805-851. -/
def servicesOf (apps : List App) : List Service :=
  ((isort (fun x y => !strLt y.name x.name) apps).flatMap fun a => (protosOf a).map fun p => (a, p)).zipIdx.map fun e =>
    ⟨serviceName e.1.1.name (e.2 + 1), upper e.1.2.toList, e.1.1.sport, e.1.1.dport⟩

/-- The name of an address; capirca/lib/versa.py:787, 799. -/
def addressName (i : Nat) : Str := '_' :: (toString i).toList

/-- The output; capirca/lib/versa.py:853-901. -/
structure Output where
  names : Names
  rules : List VRule
  addresses : List (Str × Net) := []
  groups : List (Str × List Str) := []
  services : List Service := []
deriving DecidableEq, Repr

/-- `__str__`: no objects are written if there are no addresses. The addresses of a group are sorted by their number as text in the
code, here by their number; each is the only one of its list, so that sorting and collapsing change nothing;
capirca/lib/versa.py:761-801, 853-901. -/
def outputOf (st : State) : Output :=
  if st.book.isEmpty then { names := st.names, rules := st.rules }
  else {
    names := st.names, rules := st.rules
    addresses := st.book.flatMap fun z => z.2.map fun e => (addressName e.1, e.2)
    groups := st.book.map fun z => (z.1, z.2.map fun e => addressName e.1)
    services := servicesOf st.apps }

/-- The generator; capirca/lib/versa.py:368-901. -/
def output (fs : List Filter) : Except Err Output := do
  let st ← translate {} fs
  .ok (outputOf st)

/-! ### keywords -/

/-- `_BuildTokens`; capirca/lib/versa.py:382-404. -/
def tables : Tables where
  platform := "versa"
  tokens := (baseTables "versa").tokens ++ ["dscp_match", "destination_zone", "logging", "option", "source_zone", "versa_application"]
  subTokens := [("action", ["accept", "deny", "reject", "count", "log", "dscp"]), ("icmp_type", (icmp4 ++ icmp6).map Prod.fst)]
  warnOnly := warnIfUnsupported

end Versa
end Verif
