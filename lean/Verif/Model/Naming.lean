import Verif.Model.Port

/-!
Model of capirca/lib/naming.py.
-/

namespace Verif
namespace Naming
open PyStr

/-- `self.networks` / `self.services`: token and its items, in insertion order;
capirca/lib/naming.py:98-110, 128-129. -/
abbrev Defs := List (Str × List Str)

/-- The address parser `nacaddr.IP(text, strict=False)`; capirca/lib/nacaddr.py:28-51. Parsing of the
address text is the standard library's and is a parameter of the model; `none` is `ValueError`. -/
abbrev IpParser := Str → Option Net

/-! ### tokens -/

/-- One character of `[-_A-Z0-9]` with `re.IGNORECASE` (the four non-ASCII letters are those that
Python's case-insensitive matching folds onto `I`, `K` and `S`); capirca/lib/naming.py:134. -/
def tokenChar (c : Char) : Bool :=
  isAlphaA c || isDigit c || c == '-' || c == '_' ||
  c.toNat == 0x130 || c.toNat == 0x131 || c.toNat == 0x17f || c.toNat == 0x212a

/-- `token_re.match(s)`; capirca/lib/naming.py:134. Callers only pass stripped text, so the
trailing newline that `$` tolerates does not arise. -/
def tokenRe (s : Str) : Bool := !s.isEmpty && s.all tokenChar

/-- `query.split('#')[0].split()[0]`; capirca/lib/naming.py:333-334, 427-428, 472-473; `none` is
`IndexError`. -/
def headTok (query : Str) : Option Str := (words (before '#' query)).head?

/-- `item.split('#')[0].strip()`; capirca/lib/naming.py:182, 342 etc. -/
def itemTok (item : Str) : Str := strip (before '#' item)

/-- Comment of an item, `''` without `#`; capirca/lib/naming.py:478-482. -/
def itemComment (item : Str) : Str := if item.contains '#' then after '#' item else []

/-! ### GetNet -/

/-- What one item of a token contributes to `GetNet`; capirca/lib/naming.py:478-497. -/
def netItem (ip : IpParser) (rec : Str → Except Err (List Net)) (tok i : Str) : Except Err (List Net) :=
  if tokenRe (itemTok i) then rec (itemTok i)
  else match ip (itemTok i) with
    | some a => .ok [{ a with text := lstrip (itemComment i), token := String.ofList tok }]
    | none => rec (itemTok i)

/-- Loop of `GetNet` over the items of one token; capirca/lib/naming.py:477-497. -/
def expandNets (ip : IpParser) (rec : Str → Except Err (List Net)) (tok : Str) :
    List Str → Except Err (List Net)
  | [] => .ok []
  | i :: is => do
    let here ← netItem ip rec tok i
    let rest ← expandNets ip rec tok is
    .ok (here ++ rest)

/-- `GetNet`; capirca/lib/naming.py:453-500. The first argument bounds the recursion depth;
`.diverges` when it is not enough (see `getNet`). -/
def getNetF (nets : Defs) (ip : IpParser) : Nat → Str → Except Err (List Net)
  | 0, _ => .error .diverges
  | n + 1, query =>
    match headTok query with
    | none => .error .indexError
    | some tok =>
      match nets.lookup tok with
      | none => .error (.raised "UndefinedAddressError")
      | some items => do
        let l ← expandNets ip (getNetF nets ip n) tok items
        .ok (l.map fun a => { a with parent := String.ofList tok })

/-- `GetNet` / `GetNetAddr`; capirca/lib/naming.py:439-500. More depth than there are tokens never
changes the outcome (theorem `getNet_fuel`). Python's recursion limit is not modelled. -/
def getNet (nets : Defs) (ip : IpParser) (query : Str) : Except Err (List Net) :=
  getNetF nets ip (nets.length + 1) query

/-! ### GetService -/

/-- Loop of `GetService` over the items; capirca/lib/naming.py:340-354. `done` is `already_done`. -/
def expandServices (rec : Str → Except Err (List Str)) : List Str → List Str → Except Err (List Str)
  | _, [] => .ok []
  | done, i :: is =>
    let service := itemTok i
    if !service.contains '/' then
      if !done.contains service then do
        let here ← rec service
        let rest ← expandServices rec (service :: done) is
        .ok (here ++ rest)
      else expandServices rec done is
    else do
      let rest ← expandServices rec done is
      .ok (service :: rest)

/-- `GetService`; capirca/lib/naming.py:317-355, with bounded recursion depth. -/
def getServiceF (svcs : Defs) : Nat → Str → Except Err (List Str)
  | 0, _ => .error .diverges
  | n + 1, query =>
    match headTok query with
    | none => .error .indexError
    | some name =>
      match svcs.lookup name with
      | none => .error (.raised "UndefinedServiceError")
      | some items => do
        let l ← expandServices (getServiceF svcs n) [name] items
        .ok (sortedSet l)

/-- `GetService`; capirca/lib/naming.py:317-355; see `getService_fuel`. -/
def getService (svcs : Defs) (query : Str) : Except Err (List Str) :=
  getServiceF svcs (svcs.length + 1) query

/-- `GetServiceByProto`; capirca/lib/naming.py:410-437. -/
def getServiceByProto (svcs : Defs) (query proto : Str) : Except Err (List Str) :=
  match headTok query with
  | none => .error .indexError
  | some name =>
    match svcs.lookup name with
    | none => .error (.raised "UndefinedServiceError")
    | some _ => do
      let l ← getService svcs name
      .ok (sortedSet ((l.filter fun s =>
          s.contains '/' && upper ((splitOn '/' s).getD 1 []) == upper proto).map
        fun s => (splitOn '/' s).getD 0 []))

/-! ### reverse lookups -/

/-- Whether `query` is one of the values of a definition; capirca/lib/naming.py:199-200, 247-248. -/
def hasValue (query : Str) (items : List Str) : Bool := (items.map itemTok).contains query

/-- Inner loop of `_GetParents` over the tokens (raw items, comments included);
capirca/lib/naming.py:254-257. -/
def parentsInner (rec : Str → Except Err (List Str)) (bp : Str) :
    Defs → List Str → Except Err (List Str)
  | [], acc => .ok acc
  | d :: ds, acc =>
    if d.2.contains bp && !acc.contains bp then do
      let r ← rec bp
      parentsInner rec bp ds (acc ++ bp :: r)
    else parentsInner rec bp ds acc

/-- Loop of `_GetParents` over the base parents; capirca/lib/naming.py:253-259. -/
def parentsLoop (group : Defs) (rec : Str → Except Err (List Str)) :
    List Str → List Str → Except Err (List Str)
  | [], acc => .ok acc
  | bp :: bps, acc => do
    let acc' ← parentsInner rec bp group acc
    parentsLoop group rec bps (if acc'.contains bp then acc' else acc' ++ [bp])

/-- `_GetParents`; capirca/lib/naming.py:233-260, with bounded recursion depth. -/
def getParentsF (group : Defs) : Nat → Str → Except Err (List Str)
  | 0, _ => .error .diverges
  | n + 1, query =>
    parentsLoop group (getParentsF group n)
      ((group.filter fun d => hasValue query d.2).map Prod.fst) []

/-- `GetNetParents` / `GetServiceParents`; capirca/lib/naming.py:212-260. -/
def getParents (group : Defs) (query : Str) : Except Err (List Str) :=
  getParentsF group (group.length + 2) query

/-- First character is a letter (`s[:1].isalpha()`), simplified to ASCII;
capirca/lib/naming.py:193, 202, 208. -/
def alphaHead (s : Str) : Bool := (s.head?.map isAlphaA).getD false

/-- First character is a digit (`s[:1].isdigit()`), simplified to ASCII;
capirca/lib/naming.py:172, 179. -/
def digitHead (s : Str) : Bool := (s.head?.map isDigit).getD false

/-- Inner loop of `GetIpParents` over the tokens: the accumulator and `done`;
capirca/lib/naming.py:198-206. -/
def ipParentsInner (rec : Str → Except Err (List Str)) (bp : Str) :
    Defs → List Str → Bool → Except Err (List Str × Bool)
  | [], acc, done => .ok (acc, done)
  | d :: ds, acc, done =>
    if hasValue bp d.2 && alphaHead bp then
      if acc.contains bp then ipParentsInner rec bp ds acc true
      else do
        let r ← rec bp
        ipParentsInner rec bp ds (acc ++ bp :: r) true
    else ipParentsInner rec bp ds acc done

/-- Loop of `GetIpParents` over the base parents; capirca/lib/naming.py:196-209. -/
def ipParentsLoop (nets : Defs) (rec : Str → Except Err (List Str)) :
    List Str → List Str → Except Err (List Str)
  | [], acc => .ok acc
  | bp :: bps, acc => do
    let r ← ipParentsInner rec bp nets acc false
    ipParentsLoop nets rec bps
      (if !r.2 && alphaHead bp && !r.1.contains bp then r.1 ++ [bp] else r.1)

/-- Base parents of a token: one entry per matching item; capirca/lib/naming.py:189-194. -/
def tokBase (nets : Defs) (query : Str) : List Str :=
  nets.flatMap fun d => (d.2.filter fun i => alphaHead (itemTok i) && itemTok i == query).map fun _ => d.1

/-- Base parents of an address; capirca/lib/naming.py:178-187. -/
def ipBase (nets : Defs) (ip : IpParser) (query : Net) : List Str :=
  nets.flatMap fun d =>
    (d.2.filter fun i => digitHead (itemTok i) &&
      (match ip (itemTok i) with
       | some a => a.supernetOf query
       | none => false)).map fun _ => d.1

/-- `GetIpParents` for a token (the recursive call); capirca/lib/naming.py:158-211, with bounded
recursion depth. -/
def tokParentsF (nets : Defs) : Nat → Str → Except Err (List Str)
  | 0, _ => .error .diverges
  | n + 1, query => do
    let l ← ipParentsLoop nets (tokParentsF nets n) (tokBase nets query) []
    .ok (sortedSet l)

/-- `GetIpParents` for an address object; capirca/lib/naming.py:158-211. -/
def getIpParents (nets : Defs) (ip : IpParser) (query : Net) : Except Err (List Str) := do
  let l ← ipParentsLoop nets (tokParentsF nets (nets.length + 1)) (ipBase nets ip query) []
  .ok (sortedSet l)

/-- `GetIpParents` for a string: a digit first means an address (`ValueError` if it is not one;
`strict` is the parser `nacaddr.IP(query)`, which also refuses host bits), anything else a token; capirca/lib/naming.py:170-194. -/
def getIpParentsStr (nets : Defs) (ip strict : IpParser) (query : Str) : Except Err (List Str) :=
  if digitHead query then
    match strict query with
    | some a => getIpParents nets ip a
    | none => .error .valueError
  else tokParentsF nets (nets.length + 2) query

/-- One item of `GetPortParents`: matches (`some true`), nested (`none`), no match;
capirca/lib/naming.py:380-392. -/
def portItem (given : Port.PPP) (item : Str) : Except Err (Option Bool) :=
  let ppp := Port.mkPPP item
  let single : Except Err Bool := if ppp.isSinglePort then ppp.eq given else .ok false
  do
    let s ← single
    if s then .ok (some true)
    else do
      let r ← (if ppp.isRange then ppp.contains given else .ok false : Except Err Bool)
      if r then .ok (some true) else if ppp.nested then .ok none else .ok (some false)

/-- Loop of `GetPortParents` over the items of one token: whether it matches and whether it has a
nested item; capirca/lib/naming.py:379-392. -/
def portItems (given : Port.PPP) : List Str → Except Err (Bool × Bool)
  | [] => .ok (false, false)
  | i :: is => do
    let a ← portItem given i
    let r ← portItems given is
    .ok (a == some true || r.1, a == none || r.2)

/-- First loop of `GetPortParents`: matching tokens and tokens with nested items;
capirca/lib/naming.py:378-392. -/
def portDirect (given : Port.PPP) : Defs → Except Err (List Str × List Str)
  | [] => .ok ([], [])
  | d :: ds => do
    let a ← portItems given d.2
    let r ← portDirect given ds
    .ok ((if a.1 then [d.1] else []) ++ r.1, (if a.2 then [d.1] else []) ++ r.2)

/-- Second loop of `GetPortParents`; capirca/lib/naming.py:395-403. -/
def portNested (svcs : Defs) (given : Port.PPP) : List Str → Except Err (List Str)
  | [] => .ok []
  | bp :: bps => do
    let l ← getService svcs bp
    let a ← portItems given l
    let r ← portNested svcs given bps
    .ok ((if a.1 then [bp] else []) ++ r)

/-- `GetPortParents`; capirca/lib/naming.py:357-408. -/
def getPortParents (svcs : Defs) (query proto : Str) : Except Err (List Str) := do
  let given := Port.mkPPP (query ++ '/' :: proto)
  let d ← portDirect given svcs
  let n ← portNested svcs given d.2
  if (d.1 ++ n).isEmpty then .error (.raised "UndefinedPortError") else .ok (sortedSet (d.1 ++ n))

/-! ### loading definitions -/

/-- `'services'` or `'networks'`; capirca/lib/naming.py:581. -/
inductive DefType where
  | services
  | networks
deriving DecidableEq, Repr

/-- `Naming` while loading; capirca/lib/naming.py:125-134. `unit` names the dictionary entry that
`self.unit` is. -/
structure State where
  current : Str := []
  services : Defs := []
  networks : Defs := []
  unseenServices : List Str := []
  unseenNetworks : List Str := []
  unit : Option (DefType × Str) := none
deriving DecidableEq, Repr

/-- The dictionary of a kind; capirca/lib/naming.py:128-129. -/
def State.defs (st : State) : DefType → Defs
  | .services => st.services
  | .networks => st.networks

/-- The unseen tokens of a kind; capirca/lib/naming.py:130-131. -/
def State.unseen (st : State) : DefType → List Str
  | .services => st.unseenServices
  | .networks => st.unseenNetworks

/-- Replace the dictionary of a kind; capirca/lib/naming.py:614, 622. -/
def State.setDefs (st : State) (d : Defs) : DefType → State
  | .services => { st with services := d }
  | .networks => { st with networks := d }

/-- Replace the unseen tokens of a kind; capirca/lib/naming.py:619-620, 624-625. -/
def State.setUnseen (st : State) (u : List Str) : DefType → State
  | .services => { st with unseenServices := u }
  | .networks => { st with unseenNetworks := u }

/-- `\w`, simplified to ASCII; capirca/lib/naming.py:132. -/
def wordChar (c : Char) : Bool := isAlphaA c || isDigit c || c == '_'

/-- `^\d+-\d+` or `^\d+` before the slash; capirca/lib/naming.py:132. -/
def portPart (s : Str) : Bool :=
  match splitOn '-' s with
  | [a] => !a.isEmpty && a.all isDigit
  | [a, b] => !a.isEmpty && a.all isDigit && !b.isEmpty && b.all isDigit
  | _ => false

/-- `port_re.match(s)`; capirca/lib/naming.py:132-133. -/
def portRe (s : Str) : Bool :=
  (match splitOn '/' s with
   | [p, w] => portPart p && !w.isEmpty && w.all wordChar
   | _ => false) ||
  (!s.isEmpty && s.all fun c => wordChar c || c == '-')

/-- `self.unit.items.append(v)` on a dictionary; capirca/lib/naming.py:637-639. -/
def appendItem (d : Defs) (key v : Str) : Defs :=
  d.map fun e => if e.1 == key then (e.1, e.2 ++ [v]) else e

/-- `self.unit.items.append(v)`; capirca/lib/naming.py:637-639. -/
def State.append (st : State) (v : Str) : State :=
  match st.unit with
  | none => st
  | some (ty, key) => st.setDefs (appendItem (st.defs ty) key v) ty

/-- One value of a line; capirca/lib/naming.py:632-652. -/
def addValue (ty : DefType) (comment : Str) (st : State) (v : Str) : State :=
  if st.current.isEmpty then st
  else if !comment.isEmpty then st.append (v ++ " # ".toList ++ comment)
  else
    let st' := st.append v
    if alphaHead v && !v.contains ':' && ((st'.defs ty).lookup v).isNone && !(st'.unseen ty).contains v then
      st'.setUnseen (st'.unseen ty ++ [v]) ty
    else st'

/-- Start of a new definition; capirca/lib/naming.py:594-626. -/
def startDef (ty : DefType) (st : State) (name vals : Str) : Except Err State :=
  if ty = .services ∧ ¬ (words (strip vals)).all portRe then .error (.raised "NamingSyntaxError")
  else if ((st.defs ty).lookup name).isSome then .error (.raised "NamespaceCollisionError")
  else
    let st1 := { st with current := name, unit := some (ty, name) }
    let st2 := st1.setDefs (st1.defs ty ++ [(name, [])]) ty
    .ok (st2.setUnseen ((st2.unseen ty).filter (· != name)) ty)

/-- `_ParseLine`; capirca/lib/naming.py:564-652. -/
def parseLine (ty : DefType) (st : State) (line0 : Str) : Except Err State :=
  let line1 := strip line0
  if line1.isEmpty || line1.head? == some '#' then .ok st
  else
    let comment := if line1.contains '#' then after '#' line1 else []
    let line := before '#' line1
    match splitOn '=' line with
    | name :: vals :: _ => do
      let st' ← startDef ty st (strip name) vals
      .ok ((words vals).foldl (addValue ty comment) st')
    | _ => .ok ((words line).foldl (addValue ty comment) st)

/-- `_ParseFile`, `ParseServiceList`, `ParseNetworkList`; capirca/lib/naming.py:535-562. -/
def parseLines (ty : DefType) : State → List Str → Except Err State
  | st, [] => .ok st
  | st, l :: ls => do
    let st' ← parseLine ty st l
    parseLines ty st' ls

/-- `_CheckUnseen`; capirca/lib/naming.py:146-156. -/
def checkUnseen (ty : DefType) (st : State) : Except Err Unit :=
  if (st.unseen ty).isEmpty then .ok ()
  else .error (.raised (match ty with
    | .services => "UndefinedServiceError"
    | .networks => "UndefinedAddressError"))

/-- `Naming(naming_dir)`; capirca/lib/naming.py:125-144 with `_Parse` (:502-533). The files are given
by their lines, in the order `glob` lists them; no file of a kind raises `NoDefinitionsError`. -/
def load (svcFiles netFiles : List (List Str)) : Except Err State := do
  if svcFiles.isEmpty then .error (.raised "NoDefinitionsError") else .ok ()
  let s1 ← parseLines .services {} svcFiles.flatten
  checkUnseen .services s1
  if netFiles.isEmpty then .error (.raised "NoDefinitionsError") else .ok ()
  let s2 ← parseLines .networks s1 netFiles.flatten
  checkUnseen .networks s2
  .ok s2

end Naming
end Verif
