import Verif.Model.Cisco

/-!
Model of capirca/lib/pcap.py.

A rendered expression is modelled by its tokens: parentheses, `and`, `or`, `not` and primitives (with numbers and
addresses as values). Blanks and line ends are not modelled.
-/

namespace Verif
namespace Pcap
open Policy Aclgenerator

/-- A primitive; capirca/lib/pcap.py:241, 247, 177-180, 263, 272-277, 300-301, 314-317. -/
inductive Prim where
  /-- `dst net A/LEN` -/
  | dstNet (v : Ver) (a len : Nat)
  /-- `src net localhost`, `dst net localhost` -/
  | localhost (dir : String)
  /-- a value of `_PROTO_TABLE` -/
  | proto (text : String)
  /-- `src port N`, `dst port N` -/
  | port (dir : String) (n : Nat)
  /-- `src portrange A-B`, `dst portrange A-B` -/
  | portRange (dir : String) (a b : Nat)
  /-- `icmp[icmptype] == N` -/
  | icmpType (n : Nat)
  /-- `icmp[icmpcode] == N` -/
  | icmpCode (n : Nat)
  /-- `(tcp[tcpflags] & (A|B|...) == (C|D|...))` -/
  | tcpFlags (check set : List String)
deriving DecidableEq, Repr

/-- A token of an expression; capirca/lib/pcap.py:217-235. -/
inductive Tok where
  | lp | rp | and | or | not
  | prim (p : Prim)
deriving DecidableEq, Repr

/-- `op.join(l)`; capirca/lib/pcap.py:234. -/
def sepBy (op : List Tok) : List (List Tok) → List Tok
  | [] => []
  | [x] => x
  | x :: y :: r => x ++ op ++ sepBy op (y :: r)

/-- `JoinConditionals`; capirca/lib/pcap.py:213-235. Blank strings are empty token lists. -/
def join (op : List Tok) (l : List (List Tok)) : List Tok :=
  let l := l.filter fun x => !x.isEmpty
  if l.isEmpty then [] else .lp :: (sepBy op l ++ [.rp])

/-- `str(d) != '::/0'`; capirca/lib/pcap.py:240, 246. -/
def notAll6 (n : Net) : Bool := !(n.ver == .v6 && n.addr == 0 && n.plen == 0)

/-- `dst net D`; capirca/lib/pcap.py:241. -/
def dstNet (n : Net) : List Tok := [.prim (.dstNet n.ver n.addr n.plen)]

/-- `_GenerateAddrStatement`; capirca/lib/pcap.py:237-257. The list `['any']` is the empty list. -/
def addrStatement (addrs exclude : List Net) : List Tok :=
  let addrlist := (addrs.filter notAll6).map dstNet
  if exclude.any fun n => !notAll6 n then []
  else if exclude.isEmpty then join [.or] addrlist
  else join [.and, .not] [join [.or] addrlist, join [.or] (exclude.map fun n => .not :: dstNet n)]

/-- `_PROTO_TABLE`; capirca/lib/pcap.py:70-86. -/
def protoTable : List (String × String) :=
  [("ah", "proto \\ah"), ("esp", "proto \\esp"), ("icmp", "proto \\icmp"), ("icmpv6", "icmp6"), ("ip", "proto \\ip"),
   ("ip6", "ip6"), ("igmp", "proto \\igmp"), ("igrp", "igrp"), ("pim", "proto \\pim"), ("tcp", "proto \\tcp"),
   ("udp", "proto \\udp"), ("vrrp", "proto 112"), ("hopopt", "ip6 protochain 0")]

/-- `self._PROTO_TABLE[p]`; capirca/lib/pcap.py:261. -/
def protoPrim (s : String) : Except Err (List Tok) :=
  match protoTable.lookup s with
  | some t => .ok [.prim (.proto t)]
  | none => .error .keyError

/-- `_GenerateProtoStatement`; capirca/lib/pcap.py:259-261. -/
def protoStatement (ps : List String) : Except Err (List Tok) := do
  let l ← listM protoPrim ps
  .ok (join [.or] l)

/-- One condition on a port; capirca/lib/pcap.py:269-274. -/
def portPrim (dir : String) (r : PortRange) : List Tok :=
  if r.1 = r.2 then [.prim (.port dir r.1)] else [.prim (.portRange dir r.1 r.2)]

/-- `_GeneratePortStatement`; capirca/lib/pcap.py:263-275. -/
def portStatement (ports : List PortRange) (dir : String) : List Tok := join [.or] (ports.map (portPrim dir))

/-- `_TCP_FLAGS_TABLE`; capirca/lib/pcap.py:59-68. -/
def flagsTable : List (String × String) :=
  [("syn", "tcp-syn"), ("ack", "tcp-ack"), ("fin", "tcp-fin"), ("rst", "tcp-rst"), ("urg", "tcp-urg"), ("psh", "tcp-push"),
   ("all", "(tcp-syn|tcp-ack|tcp-fin|tcp-rst|tcp-urg|tcp-push)"),
   ("none", "(tcp-syn&tcp-ack&tcp-fin&tcp-rst&tcp-urg&tcp-push)")]

/-- What an option adds to `tcp_flags_check` and to `tcp_flags_set`; capirca/lib/pcap.py:281-291. -/
def optionFlags (o : String) : List String :=
  if o = "tcp-established" then ["tcp-ack"]
  else (flagsTable.filter fun e => startsWith e.1 o).map Prod.snd

/-- `_GenerateTcpOptions`; capirca/lib/pcap.py:277-296. -/
def tcpOptions (options : List String) : List Tok :=
  let l := options.flatMap optionFlags
  if l.isEmpty then [] else [.prim (.tcpFlags l l)]

/-- `icmp[icmptype] == x` and the code; capirca/lib/pcap.py:302-306. The parts are not put in parentheses. -/
def icmpPart (x : Nat) (code : Option Nat) : List Tok :=
  match code with
  | none => [.prim (.icmpType x)]
  | some c => [.prim (.icmpType x), .and, .prim (.icmpCode c)]

/-- `code_strings`; capirca/lib/pcap.py:301-304. -/
def codeStrings (codes : List Nat) : List (Option Nat) := if codes.isEmpty then [none] else codes.map some

/-- `_GenerateIcmpType`; capirca/lib/pcap.py:298-308. -/
def icmpStatement (types codes : List Nat) : List Tok :=
  if types.isEmpty then []
  else join [.or] ((codeStrings codes).flatMap fun y => types.map fun x => icmpPart x y)

/-- The condition on icmp types; capirca/lib/pcap.py:147-163. -/
def icmpCond (t : Term) (ps : List String) : Except Err (List Tok) :=
  if t.icmpType.isEmpty then .ok []
  else if ps = ["icmp"] then do
    let l ← normalizeIcmpTypes t.icmpType ps (.name "inet")
    .ok (icmpStatement (l.filterMap id) t.icmpCode)
  else if ps = ["icmpv6"] then do
    let _ ← normalizeIcmpTypes t.icmpType ps (.name "inet6")
    .ok []
  else .error (.raised "UnsupportedFilterError")

/-- `NormalizeAddressFamily`, which only gets `inet` and `inet6` here; capirca/lib/pcap.py:198. -/
def afVer (af : String) : Ver := if af = "inet6" then .v6 else .v4

/-- `_CheckAddressAf`, `none` for an empty result; capirca/lib/pcap.py:191-202. -/
def checkAf (af : String) (l : List Net) : Option (List Net) :=
  if l.isEmpty then some []
  else if af = "mixed" then some l
  else
    let l := l.filter fun n => n.ver == afVer af
    if l.isEmpty then none else some l

/-- `_ACTION_TABLE`; capirca/lib/pcap.py:52-57. -/
def actionTable : List String := ["accept", "deny", "reject", "next"]

/-- The conditions that do not concern addresses; capirca/lib/pcap.py:137-167. -/
def otherConds (t : Term) (ps : List String) : Except Err (List (List Tok)) :=
  if !t.protocolExcept.isEmpty then .error (.raised "UnsupportedFilterError")
  else do
    let proto ← protoStatement ps
    let icmp ← icmpCond t ps
    .ok [proto, portStatement t.sourcePort "src", portStatement t.destinationPort "dst", icmp,
      if ps.contains "tcp" then tcpOptions t.option else []]

/-- The placeholder for the local addresses; capirca/lib/pcap.py:171-182. -/
def addDirection (dir : String) (cond : List Tok) : List Tok :=
  if cond.isEmpty then cond
  else if dir = "in" then join [.and] [[.prim (.localhost "dst")], cond]
  else if dir = "out" then join [.and] [[.prim (.localhost "src")], cond]
  else cond

/-- `Term.__str__`, the protocols being those after `Term.__init__`; `none` for the empty string, the tokens of the line
otherwise; capirca/lib/pcap.py:108-184. -/
def printTerm (af dir : String) (t : Term) (ps : List String) : Except Err (Option (List Tok)) :=
  if !Cisco.onPlatform "pcap" t then .ok none
  else
    match t.action with
    | [] => .error .indexError
    | a :: _ =>
      if !actionTable.contains a then .error (.raised "UnsupportedFilterError")
      else
        match checkAf af t.sourceAddress with
        | none => .ok none
        | some s =>
          match checkAf af t.destinationAddress with
          | none => .ok none
          | some d => do
            let l ← otherConds t ps
            .ok (some (addDirection dir (join [.and]
              (addrStatement s t.sourceAddressExclude :: addrStatement d t.destinationAddressExclude :: l))))

/-- `Term(...)` and `str`; capirca/lib/pcap.py:88-184, aclgenerator.py:121-133. -/
def renderTerm (af dir : String) (t : Term) : Except Err (Option (List Tok)) := do
  let ps ← termProtocols (t.protocol.map .str)
  printTerm af dir t (ps.map Proto.text)

/-- A term with the attribute the model of `policy.Term` leaves out: whether `expiration <= current_date`;
capirca/lib/pcap.py:417-425. -/
structure PTerm where
  term : Term
  expired : Bool := false

/-- A filter of the policy: options of the header for the platform after the name (one target), terms;
capirca/lib/pcap.py:374-381. -/
structure Filter where
  options : List String := []
  terms : List PTerm := []

/-- A translated filter; capirca/lib/pcap.py:437-438. -/
structure Out where
  af : String
  dir : String
  accept : List Term
  deny : List Term

/-- `filter_type`; capirca/lib/pcap.py:395-406. -/
def filterType (options : List String) : Except Err String :=
  match ["inet", "inet6", "mixed"].filter options.contains with
  | [] => .ok "mixed"
  | [a] => .ok a
  | _ => .error (.raised "UnsupportedFilterError")

/-- `direction` after the filter, which is not reset; capirca/lib/pcap.py:372, 390-393. -/
def direction (options : List String) (dir : String) : String :=
  if options.contains "in" then "in" else if options.contains "out" then "out" else dir

/-- `self._TERM(term, ...)` for the actions that have one; capirca/lib/pcap.py:429-435, aclgenerator.py:121-133. -/
def construct (a : String) (t : Term) : Except Err Unit :=
  if a = "accept" ∨ a = "deny" ∨ a = "reject" then (termProtocols (t.protocol.map .str)).map fun _ => () else .ok ()

/-- The two lists of terms; capirca/lib/pcap.py:408-435. The set of names is never filled, so there is no error for
duplicate names. -/
def splitTerms : List PTerm → Except Err (List Term × List Term)
  | [] => .ok ([], [])
  | r :: rs =>
    if r.expired then splitTerms rs
    else
      match r.term.action with
      | [] => .error .indexError
      | a :: _ => do
        construct a r.term
        let q ← splitTerms rs
        if a = "accept" then .ok (r.term :: q.1, q.2)
        else if a = "deny" ∨ a = "reject" then .ok (q.1, r.term :: q.2)
        else .ok q

/-- One filter of `_TranslatePolicy`; capirca/lib/pcap.py:374-438. -/
def translateFilter (dir : String) (f : Filter) : Except Err (String × Out) :=
  if f.options.any fun o => !["inet", "inet6", "mixed", "in", "out"].contains o then
    .error (.raised "UnsupportedTargetOptionError")
  else do
    let af ← filterType f.options
    let q ← splitTerms f.terms
    .ok (direction f.options dir, ⟨af, direction f.options dir, q.1, q.2⟩)

/-- `_TranslatePolicy`; capirca/lib/pcap.py:365-438. -/
def translate : String → List Filter → Except Err (List Out)
  | _, [] => .ok []
  | dir, f :: fs => do
    let r ← translateFilter dir f
    let os ← translate r.1 fs
    .ok (r.2 :: os)

/-- The rendered terms of a list that are not empty; capirca/lib/pcap.py:447-458. -/
def clauses (af dir : String) (ts : List Term) : Except Err (List (List Tok)) := do
  let l ← listM (renderTerm af dir) ts
  .ok (l.filterMap id)

/-- One printed filter; capirca/lib/pcap.py:444-467. -/
def printFilter (invert : Bool) (o : Out) : Except Err (List Tok) := do
  let a ← clauses o.af o.dir o.accept
  let d ← clauses o.af o.dir o.deny
  let accept := join [.and] a
  let deny := join [.and] d
  .ok (if invert then join [.and, .not] [deny, accept] else join [.and, .not] [accept, deny])

/-- `PcapFilter(policy)` and `str`, the filters being those for the platform; capirca/lib/pcap.py:365-469. -/
def render (invert : Bool) (fs : List Filter) : Except Err (List Tok) := do
  let os ← translate "" fs
  let l ← listM (printFilter invert) os
  .ok (sepBy [.or] l)

/-- `_BuildTokens`; capirca/lib/pcap.py:339-363. -/
def tables : Tables where
  platform := "pcap"
  tokens := ((baseTables "pcap").tokens ++ ["logging", "icmp_code"]).filter (· != "verbatim")
  subTokens := [("option", ["tcp-established", "established", "syn", "ack", "fin", "rst", "urg", "psh", "all", "none"]),
    ("action", ["accept", "deny", "reject", "next"]),
    ("icmp_type", (icmp4 ++ icmp6).map Prod.fst)]
  warnOnly := warnIfUnsupported

end Pcap
end Verif
