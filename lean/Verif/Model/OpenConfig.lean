import Verif.Model.Cisco

/-!
Model of capirca/lib/openconfig.py.

The printed JSON is modelled by its values. The description of the entries is left out.
-/

namespace Verif
namespace OpenConfig
open Policy Aclgenerator

/-- The fields of an `acl-entry`; capirca/lib/openconfig.py:90-205. `none` for a key that is not set. A port is given by
`low..high`, a single port by two equal numbers (the texts `N` and `A..B` denote the same ranges). -/
structure Ace where
  action : String
  src : Option (Ver × Nat × Nat) := none
  dst : Option (Ver × Nat × Nat) := none
  sport : Option (Nat × Nat) := none
  dport : Option (Nat × Nat) := none
  proto : Option Int := none
  detail : Option String := none
deriving DecidableEq, Repr

/-- A nested loop: for every element a field is put into the shared dictionary, then the inner loops run, which change the
dictionary and yield rules; capirca/lib/openconfig.py:131-205, capirca/lib/sonic.py:114-141. -/
def loop (put : A → S → S) (body : S → S × List R) : List A → S → S × List R
  | [], s => (s, [])
  | a :: as, s =>
    let r := body (put a s)
    let q := loop put body as r.1
    (q.1, r.2 ++ q.2)

/-- `if saddr != 'any': ...['source-address'] = str(saddr)`; capirca/lib/openconfig.py:132-133. -/
def putSrc (a : Option Net) (s : Ace) : Ace :=
  match a with
  | none => s
  | some n => { s with src := some (n.ver, n.addr, n.plen) }

/-- capirca/lib/openconfig.py:137-138. -/
def putDst (a : Option Net) (s : Ace) : Ace :=
  match a with
  | none => s
  | some n => { s with dst := some (n.ver, n.addr, n.plen) }

/-- capirca/lib/openconfig.py:143-150. -/
def putSport (r : PortRange) (s : Ace) : Ace := if r.1 = r.2 ∧ r.2 = 0 then s else { s with sport := some r }

/-- capirca/lib/openconfig.py:154-160. -/
def putDport (r : PortRange) (s : Ace) : Ace := if r.1 = r.2 ∧ r.2 = 0 then s else { s with dport := some r }

/-- The number put into the dictionary; capirca/lib/openconfig.py:163-176. The name `none` stands for no protocol. -/
def protoValue : Proto → Option Int
  | .str s => if s = "none" then none else protoMap.lookup s
  | .num n => some n

/-- capirca/lib/openconfig.py:163-176. -/
def putProto (p : Proto) (s : Ace) : Ace :=
  match protoValue p with
  | none => s
  | some n => { s with proto := some n }

/-- The effect of one option on `builtin-detail`; capirca/lib/openconfig.py:182-204. -/
def optDetail (v : Ver) (p : Proto) (d : Option String) (o : String) : Option String :=
  if o = "tcp-established" ∧ p ≠ .str "udp" then some "TCP_ESTABLISHED"
  else if o = "established" ∧ p ≠ .str "udp" then some "TCP_ESTABLISHED"
  else if o = "initial" ∧ p = .str "tcp" then some "TCP_INITIAL"
  else if o = "is-fragment" ∧ v = .v4 then some "FRAGMENT"
  else d

/-- The innermost loop: the rules of the protocols; capirca/lib/openconfig.py:163-205. -/
def protoLoop (v : Ver) (opts : List String) : List Proto → Ace → Ace × List Ace
  | [], s => (s, [])
  | p :: ps, s =>
    let s1 := putProto p s
    let q := protoLoop v opts ps s1
    (q.1, { s1 with detail := opts.foldl (optDetail v p) none } :: q.2)

/-- `['any']` for an empty list; capirca/lib/openconfig.py:109-115. -/
def orAny (l : List Net) : List (Option Net) := if l.isEmpty then [none] else l.map some

/-- `[(0, 0)]` for an empty list; capirca/lib/openconfig.py:117-123. -/
def orZero (l : List PortRange) : List PortRange := if l.isEmpty then [(0, 0)] else l

/-- `['none']` for an empty list; capirca/lib/openconfig.py:125-127. -/
def orNone (l : List Proto) : List Proto := if l.isEmpty then [.str "none"] else l

/-- The loops; capirca/lib/openconfig.py:129-205. -/
def explode (v : Ver) (opts : List String) (sa da : List (Option Net)) (sp dp : List PortRange) (ps : List Proto)
    (s : Ace) : List Ace :=
  (loop putSrc (loop putDst (loop putSport (loop putDport (protoLoop v opts ps) dp) sp) da) sa s).2

/-- `GetAddressOfVersion` of a flattened list, `TypeError` for `None`; capirca/lib/openconfig.py:109, 113,
policy.py:1186-1201. -/
def ofVersion (v : Ver) : Option (List Net) → Except Err (List Net)
  | none => .error .typeError
  | some l => .ok (l.filter fun n => n.ver == v)

/-- `ACTION_MAP`; capirca/lib/openconfig.py:52. -/
def actionMap : List (String × String) := [("accept", "ACCEPT"), ("deny", "DROP"), ("reject", "REJECT")]

/-- `self.ACTION_MAP[self.term.action[0]]`; capirca/lib/openconfig.py:100. -/
def actionOf (t : Term) : Except Err String :=
  match t.action with
  | [] => .error .indexError
  | a :: _ =>
    match actionMap.lookup a with
    | some s => .ok s
    | none => .error .keyError

/-- `ConvertToDict` of a flattened term with its protocols; capirca/lib/openconfig.py:79-207. All protocols come up in the
loops, so a protocol without number raises an error wherever it stands. -/
def convert (v : Ver) (t : Term) (ps : List Proto) : Except Err (List Ace) := do
  let action ← actionOf t
  let sa ← ofVersion v t.flattenedSaddr
  let da ← ofVersion v t.flattenedDaddr
  if (orNone ps).any fun p => (protoValue p).isNone && p != .str "none" then .error (.raised "OcFirewallError")
  else .ok (explode v t.option (orAny sa) (orAny da) (orZero t.sourcePort) (orZero t.destinationPort) (orNone ps)
    { action := action })

/-- A term with the attribute the model of `policy.Term` leaves out: whether `expiration <= current_date`;
capirca/lib/openconfig.py:285-299. -/
structure OTerm where
  term : Term
  expired : Bool := false

/-- `Term(term, term_af)` and `ConvertToDict`: the rules and the term as it is left behind (flattened);
capirca/lib/openconfig.py:300-307, 65-72. The protocols change once and for all (`ipip` to 4) and are taken from the
unchanged term each time. -/
def renderTerm (v : Ver) (t : Term) : Except Err (Term × List Ace) :=
  if t.option.any fun o => ["first-fragment", "sample", "rst"].contains o then .error (.raised "OcFirewallError")
  else do
    let ps ← termProtocols (t.protocol.map .str)
    let t' ← flattenAll t
    let l ← convert v t' ps
    .ok (t', l)

/-- One term of the loop: skipped, or its rules; capirca/lib/openconfig.py:276-307. -/
def oneTerm (v : Ver) (r : OTerm) : Except Err (OTerm × List Ace) :=
  if !Cisco.onPlatform "openconfig" r.term || r.expired then .ok (r, [])
  else do
    let q ← renderTerm v r.term
    .ok (⟨q.1, r.expired⟩, q.2)

/-- `oc_policies` without the sequence numbers, and the terms as they are left behind; capirca/lib/openconfig.py:275-311. -/
def termsLoop (v : Ver) : List OTerm → Except Err (List OTerm × List Ace)
  | [] => .ok ([], [])
  | r :: rs => do
    let a ← oneTerm v r
    let q ← termsLoop v rs
    .ok (a.1 :: q.1, a.2 ++ q.2)

/-- The rules with their sequence numbers, which start after `k`; capirca/lib/openconfig.py:307-311. -/
def number (k : Nat) : List Ace → List (Nat × Ace)
  | [] => []
  | a :: as => (k + 1, a) :: number (k + 1) as

/-- An `acl-set`; capirca/lib/openconfig.py:264-273, 313. -/
structure AclSet where
  name : Option String
  ver : Ver
  entries : List (Nat × Ace)

/-- A filter: options of the header for the platform (one target), terms; capirca/lib/openconfig.py:242-246. -/
structure Filter where
  options : List String := []
  terms : List OTerm := []

/-- `address_family`, where `order` is the order in which the set `_SUPPORTED_AF` is run through;
capirca/lib/openconfig.py:252-256. -/
def family (order options : List String) : String := order.foldl (fun af i => if options.contains i then i else af) "inet"

/-- The options after the families have been removed (each once); capirca/lib/openconfig.py:253-256. -/
def restOptions (order options : List String) : List String := order.foldl (fun l i => l.erase i) options

/-- `FilterName`, which reads the same list of options; capirca/lib/openconfig.py:265-269, policy.py:1849-1865. -/
def setName (af : String) (rest : List String) (v : Ver) : Option String :=
  if af = "mixed" then some (rest.head?.getD "None" ++ if v = .v4 then "4" else "6") else rest.head?

/-- `term_address_families`; capirca/lib/openconfig.py:259-261. -/
def versions (af : String) : List Ver := if af = "mixed" then [.v4, .v6] else if af = "inet6" then [.v6] else [.v4]

/-- The sets of a filter, for the remaining families; capirca/lib/openconfig.py:263-314. -/
def setsLoop (name : Ver → Option String) : Nat → List OTerm → List Ver → Except Err (Nat × List AclSet)
  | k, _, [] => .ok (k, [])
  | k, ts, v :: vs => do
    let q ← termsLoop v ts
    let r ← setsLoop name (k + q.2.length) q.1 vs
    .ok (r.1, ⟨name v, v, number k q.2⟩ :: r.2)

/-- `_TranslatePolicy` for the filters of the platform, `k` being the last sequence number;
capirca/lib/openconfig.py:235-321. -/
def filtersLoop (order : List String) : Nat → List Filter → Except Err (List AclSet)
  | _, [] => .ok []
  | k, f :: fs => do
    let af := family order f.options
    let q ← setsLoop (setName af (restOptions order f.options)) k f.terms (versions af)
    let r ← filtersLoop order q.1 fs
    .ok (q.2 ++ r)

/-- `self.acl_data`; capirca/lib/openconfig.py:235-321. -/
def translate (order : List String) (fs : List Filter) : Except Err (List AclSet) := filtersLoop order 0 fs

/-- `_BuildTokens`; capirca/lib/openconfig.py:218-233. Removing `icmp-type` removes nothing, the token is `icmp_type`. -/
def tables : Tables where
  platform := "openconfig"
  tokens := (baseTables "openconfig").tokens.filter fun s => !["icmp-type", "verbatim"].contains s
  subTokens := [("option", ["established", "first-fragment", "is-fragment", "initial", "rst", "sample", "tcp-established"]),
    ("action", ["accept", "deny", "reject"]), ("icmp_type", (icmp4 ++ icmp6).map Prod.fst)]
  warnOnly := warnIfUnsupported

end OpenConfig
end Verif
