import Verif.Model.OpenConfig

/-!
Model of capirca/lib/sonic.py.

The printed JSON is modelled by its values.
-/

namespace Verif
namespace Sonic
open Policy Aclgenerator OpenConfig

/-- The keys of a rule; capirca/lib/sonic.py:91-97, 111-141. `none` for a key that is not set. The address and icmp keys carry the
family in their name (`SRC_IP`, `SRC_IPV6`), here it is part of the value. `flags` is `TCP_FLAGS`, which has only one
value. -/
structure Rule where
  action : String
  proto : Option Int := none
  flags : Bool := false
  icmp : Option (Ver × Nat) := none
  src : Option (Ver × Nat × Nat) := none
  dst : Option (Ver × Nat × Nat) := none
  sport : Option Nat := none
  sportRange : Option (Nat × Nat) := none
  dport : Option Nat := none
  dportRange : Option (Nat × Nat) := none
deriving DecidableEq, Repr

/-- `self.PROTO_MAP[proto]`; capirca/lib/sonic.py:117. The numbers put in by `Term.__init__` are no keys. -/
def protoKey : Proto → Option Int
  | .str s => protoMap.lookup s
  | .num _ => none

/-- capirca/lib/sonic.py:115-119, `fl` if there are flags. -/
def putProto (fl : Bool) (p : Option Proto) (s : Rule) : Rule :=
  match p with
  | none => s
  | some q => { s with proto := protoKey q, flags := s.flags || (fl && decide (q = .str "tcp")) }

/-- capirca/lib/sonic.py:121-122. -/
def putIcmp (v : Ver) (i : Option Nat) (s : Rule) : Rule :=
  match i with
  | none => s
  | some n => { s with icmp := some (v, n) }

/-- capirca/lib/sonic.py:124-125. -/
def putSrc (a : Option Net) (s : Rule) : Rule :=
  match a with
  | none => s
  | some n => { s with src := some (n.ver, n.addr, n.plen) }

/-- capirca/lib/sonic.py:127-128. -/
def putDst (a : Option Net) (s : Rule) : Rule :=
  match a with
  | none => s
  | some n => { s with dst := some (n.ver, n.addr, n.plen) }

/-- capirca/lib/sonic.py:130-134. -/
def putSport (r : PortRange) (s : Rule) : Rule :=
  if r.1 = r.2 ∧ r.2 = 0 then s else if r.1 = r.2 then { s with sport := some r.1 } else { s with sportRange := some r }

/-- capirca/lib/sonic.py:136-140. -/
def putDport (r : PortRange) (s : Rule) : Rule :=
  if r.1 = r.2 ∧ r.2 = 0 then s else if r.1 = r.2 then { s with dport := some r.1 } else { s with dportRange := some r }

/-- The loops; capirca/lib/sonic.py:110-141. -/
def explode (v : Ver) (fl : Bool) (ps : List (Option Proto)) (types : List (Option Nat)) (sa da : List (Option Net))
    (sp dp : List PortRange) (s : Rule) : List Rule :=
  (loop (putProto fl) (loop (putIcmp v) (loop putSrc (loop putDst (loop putSport (loop putDport (fun s => (s, [s])) dp) sp)
    da) sa) types) ps s).2

/-- `protos`; capirca/lib/sonic.py:64-66. -/
def protos (ps : List Proto) : List (Option Proto) := if ps.isEmpty then [none] else ps.map some

/-- `_HasBothAddressFamiliesIPs`; capirca/lib/sonic.py:144-168. -/
def hasFamily (v : Ver) (l : List Net) : Bool :=
  !((l.filter fun n => n.ver == v).isEmpty && !(l.filter fun n => n.ver != v).isEmpty)

/-- `ACTION_MAP`; capirca/lib/sonic.py:33. -/
def actionMap : List (String × String) := [("accept", "FORWARD"), ("deny", "DROP")]

/-- The part of `ConvertToDict` after the checks of the platform, the action and the protocols;
capirca/lib/sonic.py:68-142. All protocols come up in the loops, so a protocol without key raises an error wherever it
stands. -/
def convertRest (v : Ver) (t : Term) (ps : List Proto) (action : String) : Except Err (List Rule) := do
  let types ← Cisco.icmpTypesOf t v
  match t.flattenedSaddr with
  | none => .error .typeError
  | some sa =>
    if !hasFamily v sa then .ok []
    else
      match t.flattenedDaddr with
      | none => .error .typeError
      | some da =>
        if !hasFamily v da then .ok []
        else if ps.any fun p => (protoKey p).isNone then .error .keyError
        else .ok (explode v (t.option.contains "tcp-established") (protos ps) types
          (orAny (sa.filter fun n => n.ver == v)) (orAny (da.filter fun n => n.ver == v)) (orZero t.sourcePort)
          (orZero t.destinationPort) { action := action })

/-- `ConvertToDict`; capirca/lib/sonic.py:45-142. -/
def convert (v : Ver) (t : Term) (ps : List Proto) : Except Err (List Rule) :=
  match t.action with
  | [] => .ok []
  | a :: _ =>
    if !t.platform.isEmpty && !t.platform.contains "sonic" then .ok []
    else
      match actionMap.lookup a with
      | none => .error .keyError
      | some action =>
        if (t.protocol = ["icmp"] ∧ v = .v6) ∨ (t.protocol = ["icmpv6"] ∧ v = .v4) then .ok []
        else convertRest v t ps action

/-- `Term(term, term_af)` and `ConvertToDict`: the term as it is left behind (flattened) and the rules;
capirca/lib/sonic.py:253-254, 35-43. -/
def renderTerm (v : Ver) (t : Term) : Except Err (Term × List Rule) := do
  let ps ← termProtocols (t.protocol.map .str)
  let t' ← flattenAll t
  let l ← convert v t' ps
  .ok (t', l)

/-- A term in the families of the filter; capirca/lib/sonic.py:252-254. -/
def famLoop : Term → List Ver → Except Err (List Rule)
  | _, [] => .ok []
  | t, v :: vs => do
    let q ← renderTerm v t
    let r ← famLoop q.1 vs
    .ok (q.2 ++ r)

/-- One term of the loop; capirca/lib/sonic.py:241-254. -/
def oneTerm (vs : List Ver) (r : OTerm) : Except Err (List Rule) := if r.expired then .ok [] else famLoop r.term vs

/-- The rules of a filter before they are numbered; capirca/lib/sonic.py:241-254. Numbers that run out are noticed after
all terms have been rendered, which makes no difference but for the error raised. -/
def termsLoop (vs : List Ver) : List OTerm → Except Err (List Rule)
  | [] => .ok []
  | r :: rs => do
    let a ← oneTerm vs r
    let q ← termsLoop vs rs
    .ok (a ++ q)

/-- A rule with its priority; capirca/lib/sonic.py:262. -/
structure Entry where
  priority : Nat
  rule : Rule
deriving DecidableEq, Repr

/-- `d[k] = v`; capirca/lib/sonic.py:263. -/
def setKey (k : String) (e : Entry) (l : List (String × Entry)) : List (String × Entry) :=
  if l.any fun x => x.1 == k then l.map fun x => if x.1 == k then (k, e) else x else l ++ [(k, e)]

/-- Numbering, `k` being the number of rules so far; capirca/lib/sonic.py:181-183, 257-263. -/
def number (name : String) : Nat → List (String × Entry) → List Rule → Except Err (Nat × List (String × Entry))
  | k, acc, [] => .ok (k, acc)
  | k, acc, r :: rs =>
    if 65536 < 10 * (k + 1) then .error (.raised "Error")
    else number name (k + 1) (setKey (name ++ "|RULE_" ++ toString (10 * (k + 1))) ⟨65536 - 10 * (k + 1), r⟩ acc) rs

/-- A filter: options of the header for the platform (one target), terms, and the order in which the set of its families is
run through; capirca/lib/sonic.py:213-239. -/
structure Filter where
  options : List String := []
  order : List Ver := [.v4, .v6]
  terms : List OTerm := []

/-- `term_address_families`; capirca/lib/sonic.py:227-234. -/
def families (f : Filter) : List Ver :=
  f.order.filter fun v => f.options.contains "mixed" || f.options.contains (if v = .v4 then "inet" else "inet6")

/-- `self.sonic_policy`: rules, or a dictionary under the key `ACL_RULE` beside rules; capirca/lib/sonic.py:208, 263-265. -/
inductive Dict where
  | rules (l : List (String × Entry))
  | wrap (inner : Dict) (l : List (String × Entry))

/-- The rules of a filter put into the dictionary; capirca/lib/sonic.py:263-265. At that point the dictionary has no rules
beside `ACL_RULE`. -/
def Dict.put (d : Dict) (l : List (String × Entry)) : Dict :=
  match d with
  | .rules _ => .wrap (.rules l) []
  | .wrap inner _ => .wrap (.wrap inner l) []

/-- `_TranslatePolicy` for the filters of the platform; capirca/lib/sonic.py:207-265. -/
def filtersLoop : Nat → Dict → List Filter → Except Err Dict
  | _, d, [] => .ok d
  | k, d, f :: fs =>
    match f.options with
    | [] => .error (.raised "Error")
    | name :: _ =>
      if (families f).isEmpty then filtersLoop k d fs
      else do
        let l ← termsLoop (families f) f.terms
        let q ← number name k [] l
        filtersLoop q.1 (d.put q.2) fs

/-- `self.sonic_policy`; capirca/lib/sonic.py:207-265. -/
def translate (fs : List Filter) : Except Err Dict := filtersLoop 0 (.rules []) fs

/-- `_BuildTokens`; capirca/lib/sonic.py:185-205. -/
def tables : Tables where
  platform := "sonic"
  tokens := (baseTables "sonic").tokens.filter fun s =>
    !["verbatim", "stateless_reply", "platform_exclude", "platform", "source_address_exclude",
      "destination_address_exclude"].contains s
  subTokens := [("option", ["tcp-established"]), ("action", ["accept", "deny"]),
    ("icmp_type", (icmp4 ++ icmp6).map Prod.fst)]
  warnOnly := warnIfUnsupported

end Sonic
end Verif
