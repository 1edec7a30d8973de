import Verif.Model.Naming

/-!
Model of tools/cgrep.py, the command line tool that searches definitions, and of
capirca/lib/policyreader.py, the library that searches policy files.

The text that is printed is not modelled, only what it is made of: a printed network is the network, a
printed list its elements. `argparse` is not modelled.
-/

namespace Verif
namespace Cgrep
open PyStr Naming

/-- The definitions `db` and how texts read as addresses: `ip` with host bits allowed, `strict` without;
tools/cgrep.py:134, capirca/lib/nacaddr.py:28-51. -/
structure Db where
  nets : Defs
  svcs : Defs
  ip : IpParser
  strict : IpParser

/-- `[f(o) for o in objects]` where `f` may raise; tools/cgrep.py:391-393, 459-461. -/
def each (f : α → Except Err β) : List α → Except Err (List β)
  | [] => .ok []
  | x :: xs => do
    let y ← f x
    let ys ← each f xs
    .ok (y :: ys)

/-- `get_nets`; tools/cgrep.py:380-394. -/
def getNets (db : Db) (objects : List Str) : Except Err (List (Str × List Net)) :=
  each (fun o => do
    let l ← Naming.getNet db.nets db.ip o
    .ok (o, l)) objects

/-- `get_ports`; tools/cgrep.py:447-462. -/
def getPorts (db : Db) (objects : List Str) : Except Err (List (Str × List Str)) :=
  each (fun o => do
    let l ← Naming.getService db.svcs o
    .ok (o, l)) objects

/-- `l[0]`; tools/cgrep.py:198, 252-253, 256-257, 370. -/
def at0 (l : List α) : Except Err α :=
  match l with
  | [] => .error .indexError
  | x :: _ => .ok x

/-- The two loops of `check_encapsulated` over networks; tools/cgrep.py:264-274. -/
def inside (first second : List Net) : Bool :=
  first.all fun o => second.any fun s => o.ver == s.ver && o.subnetOf s

/-- The same loops over ports: these are strings, which have no attribute `version`;
tools/cgrep.py:264-274. -/
def insidePorts (first second : List Str) : Except Err Bool :=
  match first, second with
  | [], _ => .ok true
  | _ :: _, [] => .ok false
  | _ :: _, _ :: _ => .error .attributeError

/-- `check_encapsulated`; tools/cgrep.py:232-274. -/
def checkEncapsulated (db : Db) (objType first second : Str) : Except Err Bool :=
  if objType == "network".toList then do
    let a ← getNets db [first]
    let f ← at0 a
    let b ← getNets db [second]
    let s ← at0 b
    .ok (inside f.2 s.2)
  else if objType == "service".toList then do
    let a ← getPorts db [first]
    let f ← at0 a
    let b ← getPorts db [second]
    let s ← at0 b
    insidePorts f.2 s.2
  else .error .valueError

/-- `nacaddr.IP(ip)`; tools/cgrep.py:368. -/
def parseIp (db : Db) (ip : Str) : Except Err Net :=
  match db.strict ip with
  | some a => .ok a
  | none => .error .valueError

/-- The loop of `get_nets_and_highest_prefix`; tools/cgrep.py:366-377. -/
def highest (q : Net) (l : List Net) : Nat × List Net :=
  l.foldl (fun acc n =>
    if q.ver == n.ver && q.subnetOf n then (if n.plen > acc.1 then n.plen else acc.1, acc.2 ++ [n])
    else acc) (0, [])

/-- `get_nets_and_highest_prefix`; tools/cgrep.py:353-377. -/
def netsAndHighest (db : Db) (ip group : Str) : Except Err (Nat × List Net) := do
  let q ← parseIp db ip
  let a ← getNets db [group]
  let f ← at0 a
  .ok (highest q f.2)

/-- The lines for one token that contains the address; tools/cgrep.py:338-344. -/
def parentLines (db : Db) (ip v : Str) : Except Err (List (Str × Nat × List Net)) := do
  let nested ← Naming.getParents db.nets v
  let p ← netsAndHighest db ip v
  .ok (if nested.isEmpty then [(v, p)] else nested.map fun n => (n ++ " -> ".toList ++ v, p))

/-- `get_ip_parents`; tools/cgrep.py:324-350. `sorted(…, reverse=True)` keeps the order of equal
elements. -/
def ipParents (db : Db) (ip : Str) : Except Err (List (Str × List Net)) := do
  let rval ← Naming.getIpParentsStr db.nets db.ip db.strict ip
  let ls ← each (parentLines db ip) rval
  .ok ((isort (fun a b => decide (b.2.1 ≤ a.2.1)) ls.flatten).map fun r => (r.1, r.2.2))

/-- `group_diff` for the two addresses of `-g`; tools/cgrep.py:301-321. -/
def groupDiff (db : Db) (ip1 ip2 : Str) : Except Err (List Str × List Str × List Str) := do
  let r1 ← ipParents db ip1
  let r2 ← ipParents db ip2
  let g1 := r1.map (·.1)
  let g2 := r2.map (·.1)
  .ok (sortedSet (g1.filter fun x => g2.contains x), sortedSet (g1.filter fun x => !g2.contains x),
    sortedSet (g2.filter fun x => !g1.contains x))

/-- `set(l)` of networks, in the order of first occurrence (Python's order of a set is not specified);
tools/cgrep.py:412, 415. -/
def netSet : List Net → List Net
  | [] => []
  | n :: l => n :: (netSet l).filter fun m => !n.eqv m

/-- `el in d` for a network and a list of networks; tools/cgrep.py:417-421. -/
def elem (e : Net) (d : List Net) : Bool := d.any fun n => n.eqv e

/-- `compare_tokens`: the union and the "diff"; tools/cgrep.py:397-423. -/
def compareTokens (db : Db) (t1 t2 : Str) : Except Err (List Net × List Net) := do
  let d1 ← Naming.getNet db.nets db.ip t1
  let d2 ← Naming.getNet db.nets db.ip t2
  let union := netSet (d1 ++ d2)
  .ok (union, (netSet (d1 ++ d2)).filter fun e =>
    (elem e d1 && elem e d2) || elem e d1 || elem e d2)

/-- What `compare_ip_token` reports: the address, the token and whether it is in; `none` without any
address (`[]`). tools/cgrep.py:436-444. -/
def compareIpToken (db : Db) (token : Str) (ips : List Str) : Except Err (Option (Str × Str × Bool)) := do
  let l ← each (fun ip => do
    let rval ← Naming.getIpParentsStr db.nets db.ip db.strict ip
    .ok (ip, token, rval.contains token)) ips
  .ok l.getLast?

/-- What `-t TOKEN -i IP…` reports: `none` for "is not defined"; tools/cgrep.py:143-150. -/
def tokenHasIps (db : Db) (token : Str) (ips : List Str) : Except Err (Option (Str × Str × Bool)) :=
  match getNets db [token] with
  | .error e => if e = .raised "UndefinedAddressError" then .ok none else .error e
  | .ok _ => compareIpToken db token ips

/-- `str.isalpha()`, simplified to ASCII; tools/cgrep.py:479. -/
def isAlphaS (s : Str) : Bool := !s.isEmpty && s.all isAlphaA

/-- `str.isdigit()`, simplified to ASCII; tools/cgrep.py:479. -/
def isDigitS (s : Str) : Bool := !s.isEmpty && s.all isDigit

/-- `get_services` for the two words of `-p`; tools/cgrep.py:465-482. -/
def getServices (db : Db) (a b : Str) : Except Err (Str × Str × List Str) :=
  let swap := isAlphaS a && isDigitS b
  let port := if swap then b else a
  let protocol := if swap then a else b
  do
    let l ← Naming.getPortParents db.svcs port protocol
    .ok (port, protocol, l)

/-- One token of `-o`: `none` for "is an invalid object". The networks are sorted by `int(x.ip)`, but a
network (`ipaddress.IPv4Network`, `IPv6Network`) has no attribute `ip`; tools/cgrep.py:196-205. -/
def showObject (db : Db) (obj : Str) : Except Err (Option (Str × List Net)) :=
  match getNets db [obj] with
  | .error e => if e = .raised "UndefinedAddressError" then .ok none else .error e
  | .ok l => do
    let r ← at0 l
    if r.2.isEmpty then .ok (some r) else .error .attributeError

/-- `-s`: `none` for "contains an invalid service object"; tools/cgrep.py:208-217. -/
def showServices (db : Db) (svcs : List Str) : Except Err (Option (List (Str × List Str))) :=
  match getPorts db svcs with
  | .error e => if e = .raised "UndefinedServiceError" then .ok none else .error e
  | .ok l => .ok (some l)

end Cgrep

namespace Reader
open PyStr Naming

/-- `Term`: the name and the tokens of the attributes; capirca/lib/policyreader.py:59-70. -/
structure Term where
  name : Str := []
  source : List Str := []
  destination : List Str := []
  sport : List Str := []
  dport : List Str := []
  action : List Str := []
  option : List Str := []
  protocol : List Str := []
deriving DecidableEq, Repr

/-- `Filter`; capirca/lib/policyreader.py:42-47. -/
structure Filter where
  name : Str := []
  term : List Term := []
deriving DecidableEq, Repr

/-- What the constructor keeps while it reads. A `Filter` is an object that may be in `self.filter` more
than once and still be added to: `objs` are the objects, `cur` the position of `filt` among them, `out`
the positions in `self.filter`. `indent` is never used. capirca/lib/policyreader.py:96, 103-108. -/
structure St where
  objs : List Filter := [{}]
  cur : Nat := 0
  out : List Nat := []
  term : Term := {}
  inHeader : Bool := false
  inTerm : Bool := false
  inString : Bool := false
deriving DecidableEq, Repr

/-- Number of double quotes of a line, which is given by its words; capirca/lib/policyreader.py:112
(`len(line.split('"'))` is one more). -/
def quotes (ws : List Str) : Nat := ((ws.map fun w => w.filter fun c => c == '"').map List.length).sum

/-- `words[n]`; capirca/lib/policyreader.py:123-126. -/
def word (ws : List Str) (n : Nat) : Except Err Str :=
  match ws[n]? with
  | some w => .ok w
  | none => .error .indexError

/-- The attribute lines of a term: the list of the attribute named by the first word is extended by the
others (all other lists by nothing); capirca/lib/policyreader.py:128-141. -/
def addAttr (t : Term) (ws : List Str) : Term :=
  let vs := fun k : String => if ws.headD [] == k.toList then ws.drop 1 else []
  { t with source := t.source ++ vs "source-address::"
           destination := t.destination ++ vs "destination-address::"
           sport := t.sport ++ vs "source-port::"
           dport := t.dport ++ vs "destination-port::"
           action := t.action ++ vs "action::"
           protocol := t.protocol ++ vs "protocol::"
           option := t.option ++ vs "option::" }

/-- `filt.name`; capirca/lib/policyreader.py:125. -/
def St.filt (s : St) : Filter := (s.objs[s.cur]?).getD {}

/-- The lines `if words: …`; capirca/lib/policyreader.py:118-141. -/
def wordsLine (s : St) (ws : List Str) : Except Err St :=
  match ws with
  | [] => .ok s
  | w :: _ => do
    let s := if w == "header".toList then { s with inHeader := true } else s
    let s ← (if w == "term".toList then do
        let n ← word ws 1
        .ok { s with inTerm := true, term := { name := n } }
      else .ok s : Except Err St)
    let s ← (if s.inHeader && w == "target::".toList then do
        let n ← word ws 2
        .ok (if s.filt.name != n then
            { s with objs := s.objs ++ [{ name := n }], cur := s.objs.length }
          else s)
      else .ok s : Except Err St)
    .ok (if s.inTerm then { s with term := addAttr s.term ws } else s)

/-- `filt.term.append(term)`; capirca/lib/policyreader.py:149. -/
def addTerm (s : St) : St :=
  { s with objs := s.objs.modify s.cur fun f => { f with term := f.term ++ [s.term] }, inTerm := false }

/-- The lines `if '}' in words: …`; capirca/lib/policyreader.py:143-150. -/
def closing (s : St) (ws : List Str) : St :=
  if ws.contains ['}'] then
    let s := if s.inHeader then { s with out := s.out ++ [s.cur], inHeader := false } else s
    if s.inTerm then addTerm s else s
  else s

/-- One line, given by its words (`line.strip().split()`); capirca/lib/policyreader.py:110-150. -/
def line (s : St) (ws : List Str) : Except Err St :=
  let s := if quotes ws % 2 = 1 then { s with inString := !s.inString } else s
  if s.inString then .ok s
  else do
    let s ← wordsLine s ws
    .ok (closing s ws)

/-- All lines; capirca/lib/policyreader.py:110. -/
def run (s : St) : List (List Str) → Except Err St
  | [] => .ok s
  | l :: ls => do
    let s ← line s l
    run s ls

/-- `Policy(filename)`: the filters of a file given by its lines' words. The file that cannot be opened
(`FileOpenError`) is not modelled. capirca/lib/policyreader.py:88-150. -/
def read (lines : List (List Str)) : Except Err (List Filter) := do
  let s ← run {} lines
  .ok (s.out.map fun i => (s.objs[i]?).getD {})

/-- The parents of an address without `ANY` and `RESERVED`: `RESERVED` stays when there is no `ANY`, for
then the first `remove` raises; capirca/lib/policyreader.py:195-200, 202-207. -/
def dropAny (l : List Str) : List Str :=
  if l.contains "ANY".toList then (l.erase "ANY".toList).erase "RESERVED".toList else l

/-- The tokens to look for, when the argument is given (`''` is as good as none);
capirca/lib/policyreader.py:190-207. -/
def parents (f : Str → Except Err (List Str)) (q : Option Str) : Except Err (List Str) :=
  match q with
  | none => .ok []
  | some [] => .ok []
  | some q => f q

/-- Whether a term's tokens are taken for a match: some parent is among them, or there are no parents;
capirca/lib/policyreader.py:224-247. -/
def hit (parents tokens : List Str) : Bool :=
  if parents.isEmpty then true else parents.any fun t => tokens.contains t

/-- `enumerate`; capirca/lib/policyreader.py:211, 217, 223, 249. -/
def enum (l : List α) : List (Nat × α) := (List.range l.length).zip l

/-- `filter_list`; capirca/lib/policyreader.py:208-215. -/
def chosen (fs : List Filter) (name : Option Str) : Except Err (List Filter) :=
  match name with
  | none => .ok fs
  | some [] => .ok fs
  | some n =>
    match (fs.filter fun f => n == f.name).getLast? with
    | some f => .ok [f]
    | none => .error (.raised "InvalidFilterError")

/-- The terms of one filter that match; capirca/lib/policyreader.py:217-248. The order in which a set of
numbers is run through is not modelled: the terms come in their order. -/
def termHits (dp sp dst src : List Str) (f : Filter) : List Nat :=
  ((enum f.term).filter fun t =>
    hit dp t.2.dport && hit sp t.2.sport && hit dst t.2.destination && hit src t.2.source).map (·.1)

/-- `Policy.Matches`; capirca/lib/policyreader.py:155-252. -/
def matchTerms (db : Cgrep.Db) (fs : List Filter) (src dst dport sport filtername : Option Str) :
    Except Err (List (Nat × Nat)) := do
  let dp ← parents (Naming.getParents db.svcs) dport
  let sp ← parents (Naming.getParents db.svcs) sport
  let d ← parents (fun q => do
    let l ← Naming.getIpParentsStr db.nets db.ip db.strict q
    .ok (dropAny l)) dst
  let s ← parents (fun q => do
    let l ← Naming.getIpParentsStr db.nets db.ip db.strict q
    .ok (dropAny l)) src
  let chosen ← chosen fs filtername
  .ok ((enum chosen).flatMap fun f => (termHits dp sp d s f.2).map fun i => (f.1, i))

end Reader
end Verif
