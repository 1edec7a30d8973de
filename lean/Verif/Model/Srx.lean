import Verif.Model.Attrs

/-!
Model of capirca/lib/junipersrx.py.

Policies, applications and address books are values; `lines` gives the output as lines that open a block, close one or do
neither. Comments, groups (`apply-groups`) and log messages are left out.
-/

namespace Verif
namespace Srx
open Policy Aclgenerator Nacaddr

/-- A policy term with the attributes that only this generator knows; `expired`: `expiration` is set and not after the
current date, `reply`: `stateless_reply`; capirca/lib/junipersrx.py:468-501, capirca/lib/policy.py:503-531. -/
structure STerm where
  term : Term
  expired : Bool := false
  reply : Bool := false
  timeout : Option Nat := none
  vpn : Option (String × String) := none
  dscpSet : Option String := none
  counter : Bool := false

/-- What a `then` block says; capirca/lib/junipersrx.py:190-231. -/
structure Then where
  action : String
  vpn : Option (String × String) := none
  dscpSet : Option String := none
  logs : List String := []
  count : Bool := false
deriving DecidableEq, Repr

/-- A policy of the output; `none` stands for `any`, `app` is the name of the application without `-app`;
capirca/lib/junipersrx.py:112-234. -/
structure SPolicy where
  name : Str
  src : Option (List String) := none
  dst : Option (List String) := none
  app : Option Str := none
  dscp : List String := []
  dscpExcept : List String := []
  fromZones : List String := []
  toZones : List String := []
  thens : List Then := []
deriving DecidableEq, Repr

/-- `ACTIONS`; capirca/lib/junipersrx.py:94-100. -/
def actions : List (String × String) :=
  [("accept", "permit"), ("deny", "deny"), ("reject", "reject"), ("count", "count"), ("log", "log"),
   ("expresspath", "services-offload"), ("dscp", "dscp")]

/-! ### large terms -/

/-- Size of a network; capirca/lib/junipersrx.py:646-649, capirca/lib/policy.py:441-442. -/
def weight (n : Net) : Nat := if n.ver = .v6 then 4 else 1

/-- `_AF_MAP`; capirca/lib/junipersrx.py:296-298. -/
def inFamily (af : String) (v : Ver) : Bool := af == "mixed" || (if v = .v4 then af == "inet" else af == "inet6")

/-- `AddressesByteLength`; capirca/lib/policy.py:1119-1141. -/
def byteLength (af : String) (t : Term) : Nat :=
  (((t.sourceAddress ++ t.destinationAddress).filter fun n => inFamily af n.ver).map weight).sum

/-- `Chunks`: `counter` and the list at `index`; capirca/lib/junipersrx.py:635-651. -/
def chunkLoop : Nat → List Net → List Net → List (List Net)
  | _, cur, [] => [cur]
  | counter, cur, n :: ns =>
    if 2 * counter > 1023 then cur :: chunkLoop (weight n) [n] ns
    else chunkLoop (counter + weight n) (cur ++ [n]) ns

/-- The chunks of a list with their tokens; capirca/lib/junipersrx.py:658-669. -/
def chunks (side : String) (name : Str) (l : List Net) : List (List Net) :=
  (chunkLoop 0 [] l).zipIdx.map fun e => e.1.map fun n => { n with parent := side ++ String.ofList name ++ toString e.2 }

/-- The terms for a large term. The code shares the networks among them, so that their tokens change together if addresses
are excluded; the model copies them; capirca/lib/junipersrx.py:671-679. -/
def parts (g : STerm) : List STerm :=
  ((chunks "src_" g.term.name g.term.sourceAddress).flatMap fun s =>
    (chunks "dst_" g.term.name g.term.destinationAddress).map fun d => (s, d)).zipIdx.map fun e =>
      { g with term := { g.term with
        sourceAddress := e.1.1, destinationAddress := e.1.2, name := g.term.name ++ '_' :: (toString e.2).toList } }

/-- `_FixLargePolices`; capirca/lib/junipersrx.py:623-684. -/
def fixLarge (af : String) (gs : List STerm) : List STerm :=
  gs.flatMap fun g => if byteLength af g.term > 1023 then parts g else [g]

/-! ### address books -/

/-- The value at a key of a dictionary is changed, starting from `d` if there is none;
capirca/lib/junipersrx.py:693-704. -/
def upsert {β : Type} (k : String) (d : β) (f : β → β) : List (String × β) → List (String × β)
  | [] => [(k, f d)]
  | e :: es => if e.1 = k then (k, f e.2) :: es else e :: upsert k d f es

/-- The networks of a group after one more; capirca/lib/junipersrx.py:695-704. -/
def enterNet (l : List Net) (a : Net) : List Net :=
  match l.find? fun ip => ip.supernetOf a || a.supernetOf ip with
  | none => l ++ [a]
  | some ip => if ip.supernetOf a then l else l.map fun x => if x.eqv ip then a else x

/-- `self.addressbook`: groups of networks by zone and token; capirca/lib/junipersrx.py:311. -/
abbrev Zones := List (String × List (String × List Net))

/-- `_BuildAddressBook`; capirca/lib/junipersrx.py:686-704. -/
def enter (b : Zones) (zone : String) (a : Net) : Zones :=
  upsert zone [] (upsert a.parent [] fun l => enterNet l a) b

/-- The networks of a term are entered; capirca/lib/junipersrx.py:559-560, 573-574. -/
def enterAll (b : Zones) (zone : String) (l : List Net) : Zones := l.foldl (fun b a => enter b zone a) b

/-- Equality of lists of networks; capirca/lib/junipersrx.py:543-546. -/
def sameNets : List Net → List Net → Bool
  | [], [] => true
  | a :: as, b :: bs => a.eqv b && sameNets as bs
  | _, _ => false

/-- A list of addresses that equals a group is replaced by the group; capirca/lib/junipersrx.py:538-546. -/
def alias (b : Zones) (l : List Net) : List Net :=
  b.foldl (fun l z => (isort (fun x y => !decide (y.1 < x.1)) z.2).foldl (fun l e => if sameNets l e.2 then e.2 else l) l) l

/-- The networks without the excluded ones, one after the other; capirca/lib/junipersrx.py:515-520, 529-534. -/
def removeAll : List Net → List Net → Except Err (List Net)
  | l, [] => .ok l
  | l, e :: es => do
    let r ← removeAddressFromList l e
    removeAll r es

/-- `term.name.upper()`, for ASCII letters; capirca/lib/junipersrx.py:513, 527. -/
def upper (name : Str) : String := String.ofList (name.map Char.toUpper)

/-- The addresses of a side after exclusion; capirca/lib/junipersrx.py:503-534. -/
def excluded (name : Str) (suffix : String) (inc exc : List Net) : Except Err (List Net) :=
  if exc.isEmpty then .ok inc
  else do
    let l ← removeAll (if inc.isEmpty then [{ ver := .v4, addr := 0, plen := 0 }] else inc) exc
    .ok (l.map fun n => { n with token := upper name ++ suffix, parent := upper name ++ suffix })

/-! ### applications -/

/-- An entry of `self.applications`; capirca/lib/junipersrx.py:600-619. -/
structure App where
  name : Str
  sport : List PortRange := []
  dport : List PortRange := []
  protos : List Proto := []
  types : List Nat := []
  timeout : Option Nat := none
deriving DecidableEq, Repr

/-- All items but the name are equal; capirca/lib/junipersrx.py:607-608. -/
def App.same (a b : App) : Bool :=
  a.sport == b.sport && a.dport == b.dport && a.protos == b.protos && a.types == b.types && a.timeout == b.timeout

/-- The entry that serves a term, and the entries afterwards; capirca/lib/junipersrx.py:606-619. -/
def placeApp (a : App) : List App → Except Err (Str × List App)
  | [] => .ok (a.name, [a])
  | s :: ss =>
    if s.same a then .ok (s.name, s :: ss)
    else if a.name = s.name then .error (.raised "ConflictingApplicationSetsError")
    else do
      let q ← placeApp a ss
      .ok (q.1, s :: q.2)

/-- The protocols of the entry: the first `icmpv6` is renamed; capirca/lib/junipersrx.py:594-599. -/
def appProtos (ps : List Proto) : List Proto := ps.replace (.str "icmpv6") (.str "icmp6")

/-- The numbers of the ICMP types; capirca/lib/junipersrx.py:581-593. -/
def icmpTypes (t : Term) (ps : List Proto) : Except Err (List Nat) := do
  let l ← normalizeIcmpTypes t.icmpType (ps.map Proto.text)
    (.name (match ps with
      | .str "icmp" :: _ => "inet"
      | .str "icmpv6" :: _ => "inet6"
      | _ => "unknown_af_icmp"))
  .ok (l.filterMap id)

/-! ### policies -/

/-- What is logged; capirca/lib/junipersrx.py:212-224. -/
def logsOf (action : String) (logging : List String) : List String :=
  logging.flatMap fun s =>
    if s = "log-both" then ["session-init", "session-close"] else if action = "accept" then ["session-close"] else ["session-init"]

/-- One `then` block; capirca/lib/junipersrx.py:190-231. A word that is not an action fails. -/
def thenOf (g : STerm) (action : String) : Except Err Then :=
  match actions.lookup action with
  | none => .error .typeError
  | some a => .ok { action := a, vpn := if action = "accept" then g.vpn else none, dscpSet := g.dscpSet,
                    logs := logsOf action g.term.logging, count := g.counter }

/-- `a.replace('accept', 'expresspath')`: actions are single words; capirca/lib/junipersrx.py:108-110. -/
def express (on : Bool) (action : List String) : List String :=
  if on then action.map fun a => if a = "accept" then "expresspath" else a else action

/-- The names of the address sets of a side. The code sorts them; capirca/lib/junipersrx.py:129-150. -/
def tokensOf (l : List Net) : Option (List String) :=
  if l.isEmpty then none else some (l.map Net.parent).eraseDups

/-- No application is needed; capirca/lib/junipersrx.py:153-154. -/
def anyApp (t : Term) : Bool :=
  t.sourcePort.isEmpty && t.destinationPort.isEmpty && t.icmpType.isEmpty && t.protocol.isEmpty

/-- `Term.__str__`; capirca/lib/junipersrx.py:112-234. -/
def policyOf (on : Bool) (g : STerm) (name : Str) (src dst : List Net) (app : Str) : Except Err SPolicy := do
  let thens ← listM (thenOf g) (express on g.term.action)
  .ok {
    name := name, src := tokensOf src, dst := tokensOf dst, app := if anyApp g.term then none else some app
    dscp := g.term.dscpMatch, dscpExcept := g.term.dscpExcept
    fromZones := g.term.sourceZone.eraseDups, toZones := g.term.destinationZone.eraseDups, thens := thens }

/-! ### translation -/

/-- A filter of the platform: `from-zone a to-zone b` and the options after it. Headers of another form raise an error and
are left out; capirca/lib/junipersrx.py:374-384. -/
structure Filter where
  fromZone : String
  toZone : String
  options : List String := []
  terms : List STerm := []

/-- `_SUPPORTED_TARGET_OPTIONS`; capirca/lib/junipersrx.py:293-294. -/
def targetOptions : List String := ["address-book-zone", "address-book-global", "expresspath", "noverbose"]

/-- The address family of a filter; capirca/lib/junipersrx.py:411, 443-462. -/
def familyOf (options : List String) : Except Err String :=
  if options.any fun o => !(["inet", "inet6", "mixed"] ++ targetOptions).contains o then .error (.raised "UnsupportedHeaderError")
  else match options.filter ["inet", "inet6", "mixed"].contains with
    | [] => .ok "mixed"
    | [a] => .ok a
    | _ => .error (.raised "ConflictingTargetOptionsError")

/-- The checks of the zones of a header; capirca/lib/junipersrx.py:386-408, 430-436. -/
def zonesOk (f : Filter) (glob : Bool) : Except Err Unit :=
  if targetOptions.contains f.fromZone || targetOptions.contains f.toZone then .error (.raised "UnsupportedFilterError")
  else if (f.fromZone ≠ "all" ∨ f.toZone ≠ "all") ∧ (f.terms.any fun g => !g.term.sourceZone.isEmpty || !g.term.destinationZone.isEmpty) then
    .error (.raised "UnsupportedFilterError")
  else if f.fromZone = "all" ∧ f.toZone = "all" then
    if glob then .ok () else .error (.raised "UnsupportedFilterError")
  else if f.fromZone = "all" ∨ f.toZone = "all" then .error (.raised "UnsupportedFilterError")
  else .ok ()

/-- The kind of address book; `mode` is what the filters so far have; capirca/lib/junipersrx.py:414-429. -/
def bookType (mode : Option Bool) (options : List String) : Except Err Bool :=
  if options.contains "address-book-zone" && options.contains "address-book-global" then
    .error (.raised "ConflictingTargetOptionsError")
  else if mode.getD (!options.contains "address-book-zone") ≠ !options.contains "address-book-zone" then
    .error (.raised "MixedAddrBookTypesError")
  else .ok (!options.contains "address-book-zone")

/-- The term is for other platforms, for replies, or for established connections; capirca/lib/junipersrx.py:469-486. -/
def skipped (g : STerm) : Bool :=
  (!g.term.platform.isEmpty && !g.term.platform.contains "srx") ||
  (!g.term.platformExclude.isEmpty && g.term.platformExclude.contains "srx") || g.reply ||
  g.term.option.contains "established" || g.term.option.contains "tcp-established"

/-- What the terms leave behind; capirca/lib/junipersrx.py:309-317. -/
structure State where
  books : Zones := []
  apps : List App := []

/-- The networks of the family; capirca/lib/junipersrx.py:550-553, 564-567. -/
def admitted (af : String) (l : List Net) : List Net := l.filter fun n => inFamily af n.ver

/-- The rest of the loop for a term once its addresses are known; capirca/lib/junipersrx.py:548-619. -/
def finish (af : String) (f : Filter) (st : State) (g : STerm) (name : Str) (src dst : List Net) :
    Except Err (State × Option SPolicy) :=
  if !src.isEmpty && (admitted af src).isEmpty then .ok (st, none)
  else if !dst.isEmpty && (admitted af dst).isEmpty then
    .ok ({ st with books := enterAll st.books f.fromZone (admitted af src) }, none)
  else do
    let ps ← termProtocols (g.term.protocol.map .str)
    let types ← icmpTypes g.term ps
    let q ← placeApp ⟨name, g.term.sourcePort, g.term.destinationPort, appProtos ps, types, g.timeout⟩ st.apps
    let pol ← policyOf (f.options.contains "expresspath") g name (admitted af src) (admitted af dst) q.1
    .ok (⟨enterAll (enterAll st.books f.fromZone (admitted af src)) f.toZone (admitted af dst), q.2⟩, some pol)

/-- A term that is rendered; capirca/lib/junipersrx.py:503-619. -/
def step (glob : Bool) (af : String) (f : Filter) (st : State) (g : STerm) (name : Str) : Except Err (State × Option SPolicy) := do
  let src ← excluded name "_SRC_EXCLUDE" g.term.sourceAddress g.term.sourceAddressExclude
  let dst ← excluded name "_DST_EXCLUDE" g.term.destinationAddress g.term.destinationAddressExclude
  finish af f st g name (if glob then alias st.books src else src) (if glob then alias st.books dst else dst)

/-- The terms of a filter; `names` are the names so far; capirca/lib/junipersrx.py:464-619. -/
def termsLoop (glob : Bool) (af : String) (f : Filter) : List Str → State → List STerm → Except Err (State × List SPolicy)
  | _, st, [] => .ok (st, [])
  | names, st, g :: gs =>
    if skipped g then termsLoop glob af f names st gs
    else do
      let name ← fixTermLength abbreviations 62 g.term.name false false
      if names.contains name then .error (.raised "SRXDuplicateTermError")
      else if g.expired then termsLoop glob af f (name :: names) st gs
      else do
        let x ← step glob af f st g name
        let q ← termsLoop glob af f (name :: names) x.1 gs
        .ok (q.1, x.2.toList ++ q.2)

/-- The policies of a filter; capirca/lib/junipersrx.py:621, 927-957. -/
structure Block where
  fromZone : String
  toZone : String
  policies : List SPolicy
deriving DecidableEq, Repr

/-- `_TranslatePolicy` for the filters of the platform; capirca/lib/junipersrx.py:347-621. -/
def translate : Option Bool → State → List Filter → Except Err (Option Bool × State × List Block)
  | mode, st, [] => .ok (mode, st, [])
  | mode, st, f :: fs => do
    let glob ← bookType mode f.options
    let _ ← zonesOk f glob
    let af ← familyOf f.options
    let x ← termsLoop glob af f [] st (fixLarge af f.terms)
    let q ← translate (some glob) x.1 fs
    .ok (q.1, q.2.1, ⟨f.fromZone, f.toZone, x.2⟩ :: q.2.2)

/-! ### output -/

/-- An address book: addresses and sets of addresses; `none` is the global one; capirca/lib/junipersrx.py:743-810. -/
structure Book where
  zone : Option String
  addresses : List (String × Net)
  sets : List (String × List String)
deriving DecidableEq, Repr

/-- The names of the addresses of a group; capirca/lib/junipersrx.py:763-766, 770-773, 791-795, 800-803. -/
def addressName (name : String) (i : Nat) : String := name ++ "_" ++ toString i

/-- One address book; capirca/lib/junipersrx.py:757-774, 785-805. -/
def bookOf (zone : Option String) (groups : List (String × List Net)) : Book where
  zone := zone
  addresses := (isort (fun x y => !decide (y.1 < x.1)) groups).flatMap fun e =>
    (collapse (sortAddrList e.2)).zipIdx.map fun n => (addressName e.1 n.2, n.1)
  sets := (isort (fun x y => !decide (y.1 < x.1)) groups).map fun e =>
    (e.1, (collapse (sortAddrList e.2)).zipIdx.map fun n => addressName e.1 n.2)

/-- The groups of all zones together; capirca/lib/junipersrx.py:749-756. -/
def merged (b : Zones) : List (String × List Net) :=
  (b.flatMap Prod.snd).foldl (fun m e => upsert e.1 [] (fun l => l ++ e.2) m) []

/-- `_GenerateAddressBook`; capirca/lib/junipersrx.py:743-810. Without filters the code has no kind of address book and
writes the zones. -/
def books (mode : Option Bool) (b : Zones) : List Book :=
  if mode = some true then [bookOf none (merged b)] else b.map fun z => bookOf (some z.1) z.2

/-- A term of an application; capirca/lib/junipersrx.py:847-860, 872-895. -/
structure AppTerm where
  label : Nat
  proto : Option Proto := none
  sport : Option PortRange := none
  dport : Option PortRange := none
  icmp : Option Nat := none
  timeout : Option Nat := none
deriving DecidableEq, Repr

/-- An application or a set of applications; capirca/lib/junipersrx.py:812-910. -/
inductive Def
  | app (name : Str) (terms : List AppTerm)
  | set (name : Str) (members : List Str)
deriving DecidableEq, Repr

/-- The name of an application or set; capirca/lib/junipersrx.py:833-840, 848-850, 866-867, 885-891. -/
def appName (name : Str) : Str := name ++ "-app".toList

/-- The name of a part; capirca/lib/junipersrx.py:836-837, 848-850, 885-891. -/
def partName (name : Str) (i : Nat) : Str := appName name ++ (toString i).toList

/-- The terms for ICMP types; capirca/lib/junipersrx.py:825-828, 842-860. -/
def icmpTerms (a : App) : List AppTerm :=
  a.types.zipIdx.flatMap fun k => a.protos.map fun p =>
    { label := k.2 + 1, proto := some p, icmp := some k.1, timeout := some (a.timeout.getD 60) }

/-- Applications for ICMP types; capirca/lib/junipersrx.py:824-862. -/
def icmpDefs (a : App) : List Def :=
  if a.protos.length * a.types.length > 8 then
    .set (appName a.name) ((List.range (a.protos.length * a.types.length)).map fun i => partName a.name (i + 1)) ::
      (icmpTerms a).zipIdx.map fun e => .app (partName a.name (e.2 + 1)) [{ e.1 with label := 1 }]
  else [.app (appName a.name) (icmpTerms a)]

/-- `l or ['']`; capirca/lib/junipersrx.py:869-871. -/
def orNone {α : Type} (l : List α) : List (Option α) := if l.isEmpty then [none] else l.map some

/-- `SRX does not like proto vrrp`; capirca/lib/junipersrx.py:874-876. -/
def vrrp (p : Proto) : Proto := if p = .str "vrrp" then .str "112" else p

/-- The terms for protocols and ports; capirca/lib/junipersrx.py:869-895. -/
def portTerms (a : App) : List AppTerm :=
  ((orNone a.protos).flatMap fun p => (orNone a.sport).flatMap fun s => (orNone a.dport).map fun d =>
    ({ label := 0, proto := p.map vrrp, sport := s, dport := d, timeout := a.timeout } : AppTerm)).zipIdx.map fun e =>
      { e.1 with label := e.2 + 1 }

/-- Applications for protocols and ports; capirca/lib/junipersrx.py:884-895. -/
def portDefs (a : App) : List Def := (portTerms a).map fun t => .app (partName a.name t.label) [t]

/-- The set of these applications; capirca/lib/junipersrx.py:866-867, 885-887, 896. -/
def portSet (a : App) : Def := .set (appName a.name) ((portTerms a).map fun t => partName a.name t.label)

/-- The entry is written; capirca/lib/junipersrx.py:822. No two entries are equal, so that `done_apps` has no effect. -/
def written (a : App) : Bool := !a.protos.isEmpty || !a.sport.isEmpty || !a.dport.isEmpty || !a.types.isEmpty

/-- The entries that are written, by name; capirca/lib/junipersrx.py:817-822. -/
def sortedApps (apps : List App) : List App := (isort (fun x y => !decide (y.name < x.name)) apps).filter written

/-- `_GenerateApplications`: the sets for protocols and ports come last; capirca/lib/junipersrx.py:812-910. -/
def defs (apps : List App) : List Def :=
  ((sortedApps apps).flatMap fun a => if a.types.isEmpty then portDefs a else icmpDefs a) ++
  ((sortedApps apps).filter fun a => a.types.isEmpty).map portSet

/-- The output; capirca/lib/junipersrx.py:912-963. -/
structure Output where
  books : List Book
  blocks : List Block
  apps : List App
deriving DecidableEq, Repr

/-- The generator for the filters of the platform; capirca/lib/junipersrx.py:347-963. -/
def output (fs : List Filter) : Except Err Output := do
  let x ← translate none {} fs
  .ok ⟨books x.1 x.2.1.books, x.2.2, x.2.1.apps⟩

/-! ### lines -/

/-- A line of the output: it ends with `{`, is `}`, or is a statement; capirca/lib/junipersrx.py:74-81. -/
inductive Line
  | opens (words : List String)
  | closes
  | stmt (words : List String)
deriving DecidableEq, Repr

/-- `a` or `a-b`; capirca/lib/junipersrx.py:726-741. -/
def portWord (r : PortRange) : String := if r.1 = r.2 then toString r.1 else toString r.1 ++ "-" ++ toString r.2

/-- The statement for a term of an application; capirca/lib/junipersrx.py:847-860, 872-895. -/
def termLine (t : AppTerm) : Line :=
  .stmt (["term", "t" ++ toString t.label] ++
    (t.proto.map fun p => ["protocol", p.text]).getD [] ++
    (t.sport.map fun r => ["source-port", portWord r]).getD [] ++
    (t.dport.map fun r => ["destination-port", portWord r]).getD [] ++
    (t.icmp.map fun k => [(t.proto.map Proto.text).getD "" ++ "-type", toString k]).getD [] ++
    (t.timeout.map fun k => ["inactivity-timeout", toString k]).getD [])

/-- The lines of an application that is closed, or of a set; capirca/lib/junipersrx.py:834-838, 848-854, 866-867, 885-896. -/
def defLines : Def → List Line
  | .app name ts => .opens ["application", String.ofList name] :: ts.map termLine ++ [.closes]
  | .set name ms => .opens ["application-set", String.ofList name] :: (ms.map fun m => .stmt ["application", String.ofList m]) ++ [.closes]

/-- The lines for ICMP types: an application with exactly eight terms is not closed; capirca/lib/junipersrx.py:824-862. -/
def icmpLines (a : App) : List Line :=
  if a.protos.length * a.types.length > 8 then (icmpDefs a).flatMap defLines
  else .opens ["application", String.ofList (appName a.name)] :: (icmpTerms a).map termLine ++
    (if a.protos.length * a.types.length < 8 then [.closes] else [])

/-- The lines of `_GenerateApplications`; capirca/lib/junipersrx.py:812-910. -/
def appLines (apps : List App) : List Line :=
  if (sortedApps apps).isEmpty then [.stmt ["delete:", "applications"]]
  else .opens ["replace:", "applications"] ::
    ((sortedApps apps).flatMap fun a => if a.types.isEmpty then (portDefs a).flatMap defLines else icmpLines a) ++
    (((sortedApps apps).filter fun a => a.types.isEmpty).flatMap fun a => defLines (portSet a)) ++ [.closes]

/-- A statement with a list; capirca/lib/junipersrx.py:34-35. -/
def listLine (name : String) (l : List String) : List Line := if l.isEmpty then [] else [.stmt ([name, "["] ++ l ++ ["]"])]

/-- An address statement; capirca/lib/junipersrx.py:129-150. -/
def addressLine (name : String) (l : Option (List String)) : Line :=
  .stmt (match l with
    | none => [name, "any"]
    | some l => [name, "["] ++ l ++ ["]"])

/-- One action: it ends with the line that closes the policy; capirca/lib/junipersrx.py:190-232. -/
def thenLines (t : Then) : List Line :=
  .opens ["then"] ::
  (match t.vpn with
    | some v => [.opens [t.action], .opens ["tunnel"], .stmt ["ipsec-vpn", v.1]] ++
        (if v.2 = "" then [] else [.stmt ["pair-policy", v.2]]) ++ [.closes, .closes]
    | none => [.stmt [t.action]]) ++
  (t.dscpSet.map fun s => [Line.stmt ["dscp", s]]).getD [] ++
  (if t.logs.isEmpty then [] else .opens ["log"] :: (t.logs.map fun s => .stmt [s]) ++ [.closes]) ++
  (if t.count then [.stmt ["count"]] else []) ++ [.closes, .closes]

/-- The lines of a policy; capirca/lib/junipersrx.py:112-234. -/
def policyLines (q : SPolicy) : List Line :=
  [.opens ["policy", String.ofList q.name], .opens ["match"], addressLine "source-address" q.src,
    addressLine "destination-address" q.dst,
    .stmt ["application", (q.app.map fun a => String.ofList (appName a)).getD "any"]] ++
  listLine "dscp" q.dscp ++ listLine "dscp-except" q.dscpExcept ++ listLine "from-zone" q.fromZones ++
  listLine "to-zone" q.toZones ++ [.closes] ++ q.thens.flatMap thenLines

/-- The lines of a filter; capirca/lib/junipersrx.py:927-957. -/
def blockLines (b : Block) : List Line :=
  .opens (if b.fromZone = "all" ∧ b.toZone = "all" then ["global"] else ["from-zone", b.fromZone, "to-zone", b.toZone]) ::
  b.policies.flatMap policyLines ++ [.closes]

/-- The addresses and sets of an address book; capirca/lib/junipersrx.py:757-774, 785-805. -/
def entryLines (b : Book) : List Line :=
  (b.addresses.map fun a => .stmt ["address", a.1]) ++
  b.sets.flatMap fun s => .opens ["address-set", s.1] :: (s.2.map fun m => .stmt ["address", m]) ++ [.closes]

/-- The lines of an address book; capirca/lib/junipersrx.py:743-810. -/
def bookLines (b : Book) : List Line :=
  match b.zone with
  | none => [.opens ["replace:", "address-book"], .opens ["global"]] ++ entryLines b ++ [.closes, .closes]
  | some z => [.opens ["security-zone", z], .opens ["replace:", "address-book"]] ++ entryLines b ++ [.closes, .closes]

/-- The address books; capirca/lib/junipersrx.py:743-810. -/
def booksLines (l : List Book) : List Line :=
  if l.any fun b => b.zone.isNone then l.flatMap bookLines else .opens ["zones"] :: l.flatMap bookLines ++ [.closes]

/-- The whole output; capirca/lib/junipersrx.py:912-963. -/
def lines (o : Output) : List Line :=
  .opens ["security"] :: booksLines o.books ++ .opens ["replace:", "policies"] :: o.blocks.flatMap blockLines ++
  [.closes, .closes] ++ appLines o.apps

/-! ### keywords -/

/-- `_BuildTokens`; capirca/lib/junipersrx.py:319-345. -/
def tables : Tables where
  platform := "srx"
  tokens := (baseTables "srx").tokens ++ ["counter", "dscp_except", "dscp_match", "dscp_set", "destination_zone", "logging",
    "option", "owner", "source_zone", "target_resources", "timeout", "verbatim", "vpn"]
  subTokens := [("action", ["accept", "deny", "reject", "count", "log", "dscp"]), ("icmp_type", (icmp4 ++ icmp6).map Prod.fst)]
  warnOnly := warnIfUnsupported

end Srx
end Verif
