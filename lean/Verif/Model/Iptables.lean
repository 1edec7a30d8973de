import Verif.Model.Cisco

/-!
Model of capirca/lib/iptables.py and of its subclasses speedway.py and ipset.py.

A rendered line is modelled by its arguments (the text split at blanks, numbers and addresses as values). Comment
lines (`#`, `-m comment`) and revision tags are not modelled; they have no effect on packets.
-/

namespace Verif
namespace Iptables
open Policy Aclgenerator Nacaddr

/-- Class attributes: `_PLATFORM`, `_TERM_FORMAT`, `_PREJUMP_FORMAT`, `_POSTJUMP_FORMAT`, whether rules are appended to
the filter itself (`_FILTER_TOP_FORMAT`), whether addresses go to sets; capirca/lib/iptables.py:33-38,
speedway.py:28-30, ipset.py:36-43. -/
structure Cls where
  platform : String
  newChain : Bool
  preJump : Bool
  postJump : Bool
  inFilter : Bool
  sets : Bool
deriving DecidableEq

/-- capirca/lib/iptables.py:33-38. -/
def iptables : Cls := ⟨"iptables", true, true, false, false, false⟩
/-- capirca/lib/speedway.py:28-30. -/
def speedway : Cls := ⟨"speedway", true, false, true, false, false⟩
/-- capirca/lib/ipset.py:36-43. -/
def ipset : Cls := ⟨"ipset", false, false, false, true, true⟩

/-- An argument of a rule, one of the values joined in `rval`; capirca/lib/iptables.py:529-537. -/
inductive Arg where
  /-- a word -/
  | w (s : String)
  /-- the name of a chain or set -/
  | name (s : Str)
  /-- `TYPE` or `TYPE/CODE` -/
  | icmp (t : Nat) (code : Option Nat)
  /-- `A/LEN` -/
  | pfx (v : Ver) (a len : Nat)
  /-- ports and port ranges, comma-separated -/
  | ports (l : List PortRange)
  /-- words, comma-separated -/
  | list (l : List String)
  /-- `A` or `A:B`, possibly after a prefix -/
  | span (pre : String) (l : List Nat)
deriving DecidableEq, Repr

/-- A rendered line: `-N chain`, `-P chain action` (`:chain action`), `-A chain args`, verbatim text;
capirca/lib/iptables.py:35-38, 132-136, 634-635. -/
inductive Line where
  | newChain (c : Str)
  | policy (c : Str) (action : String)
  | rule (c : Str) (args : List Arg)
  | raw (s : String)
deriving DecidableEq, Repr

/-! ### addresses -/

/-- `self._all_ips`; capirca/lib/iptables.py:98-103. -/
def allIps (af : Ver) : Net := { ver := af, addr := 0, plen := 0 }

/-- `len(l) or 1`; capirca/lib/iptables.py:349-355. -/
def orOne (n : Nat) : Nat := if n = 0 then 1 else n

/-- Addresses and excluded addresses of one direction; capirca/lib/iptables.py:193-196. -/
structure Side where
  inc : List Net
  exc : List Net
deriving DecidableEq

/-- `term_saddr_excluded`; capirca/lib/iptables.py:334-347. -/
def excluded (inc exc : List Net) : Except Err (List Net) :=
  if exc.isEmpty then .ok [] else addressListExclude inc exc true

/-- Subtract or keep the excluded addresses; capirca/lib/iptables.py:357-365. -/
def chooseSide (subtract : Bool) (s : Side) (ex : List Net) : Side :=
  if subtract then ⟨if ex.isEmpty then s.inc else ex, []⟩ else s

/-- `num_pairs`; capirca/lib/iptables.py:371-375. -/
def numPairs (s d : List Net) : Nat :=
  let n := fun (v : Ver) (l : List Net) => (l.filter fun a => a.ver == v).length
  n .v4 s * n .v4 d + n .v6 s * n .v6 d

/-- Invert the shorter list; capirca/lib/iptables.py:376-387. -/
def invert (af : Ver) (s d : Side) : Except Err (Side × Side) := do
  if numPairs s.inc d.inc > 100 then
    let ns ← addressListExclude [allIps af] s.inc true
    let nd ← addressListExclude [allIps af] d.inc true
    if ns.length < nd.length ∧ s.exc.isEmpty then
      if ns.length + d.inc.length < numPairs s.inc d.inc then .ok (⟨[allIps af], ns⟩, d) else .ok (s, d)
    else if d.exc.isEmpty then
      if nd.length + s.inc.length < numPairs s.inc d.inc then .ok (s, ⟨[allIps af], nd⟩) else .ok (s, d)
    else .ok (s, d)
  else .ok (s, d)

/-- The addresses of the family; capirca/lib/iptables.py:388-396. -/
def Side.only (af : Ver) (s : Side) : Side := ⟨s.inc.filter fun n => n.ver == af, s.exc.filter fun n => n.ver == af⟩

/-- `if not term_saddr: term_saddr = [self._all_ips]`; capirca/lib/iptables.py:335-336, 343-344. -/
def orAll (af : Ver) (l : List Net) : List Net := if l.isEmpty then [allIps af] else l

/-- `_CalculateAddresses`; capirca/lib/iptables.py:317-396. -/
def calculate (af : Ver) (sa sx da dx : List Net) : Except Err (Side × Side) := do
  let se ← excluded (orAll af sa) sx
  let de ← excluded (orAll af da) dx
  let bailout := sx.length + dx.length + orOne sa.length * orOne da.length
  let subtract := decide (orOne se.length * orOne de.length < bailout)
  let r ← invert af (chooseSide subtract ⟨orAll af sa, sx⟩ se) (chooseSide subtract ⟨orAll af da, dx⟩ de)
  .ok (r.1.only af, r.2.only af)

/-! ### ports -/

/-- A port statement: `true` for `-m multiport`; capirca/lib/iptables.py:598. -/
abbrev PortStmt := Bool × List PortRange

/-- The loop of `_GeneratePortStatement`: `norm_ports`, `portstrings`, `count`;
capirca/lib/iptables.py:600-611. -/
def portStep (st : List PortRange × List PortStmt × Nat) (p : PortRange) : List PortRange × List PortStmt × Nat :=
  let n := st.2.2 + (if p.1 = p.2 then 1 else 2)
  if n ≥ 14 then ([], st.2.1 ++ [(true, st.1 ++ [p])], 0) else (st.1 ++ [p], st.2.1, n)

/-- `_GeneratePortStatement`; capirca/lib/iptables.py:564-618. -/
def portStatements (ps : List PortRange) : List PortStmt :=
  let r := ps.foldl portStep ([], [], 0)
  if r.1.isEmpty then r.2.1 else r.2.1 ++ [(decide (r.1.length ≠ 1), r.1)]

/-- The arguments of a port statement; capirca/lib/iptables.py:608-617. -/
def portArgs (source : Bool) (s : PortStmt) : List Arg :=
  if s.1 then [.w "-m", .w "multiport", .w (if source then "--sports" else "--dports"), .ports s.2]
  else [.w (if source then "--sport" else "--dport"), .ports s.2]

/-! ### rules -/

/-- `_PROTO_TABLE`; capirca/lib/iptables.py:40-49. Other names are used as they are (:444-447). -/
def protoWord (s : String) : String := if s = "icmpv6" then "ipv6-icmp" else s

/-- `_action_table`; capirca/lib/iptables.py:84-105. -/
def actionArgs (af : Ver) : String → Option (List Arg)
  | "accept" => some [.w "-j", .w "ACCEPT"]
  | "deny" => some [.w "-j", .w "DROP"]
  | "reject" => some [.w "-j", .w "REJECT", .w "--reject-with",
      .w (if af = .v6 then "icmp6-adm-prohibited" else "icmp-host-prohibited")]
  | "reject-with-tcp-rst" => some [.w "-j", .w "REJECT", .w "--reject-with", .w "tcp-reset"]
  | "next" => some [.w "-j", .w "RETURN"]
  | _ => none

/-- A term with the attributes the model of `policy.Term` leaves out: whether `expiration <= current_date`, and
`log_limit`; capirca/lib/iptables.py:437-439, 764, 773-780. -/
structure ITerm where
  term : Term
  expired : Bool := false
  logLimit : Option (String × String) := none

/-- What `_FormatPart` reads from the object: class, filter name, family, `trackstate`, term name (as in `$term`),
`self.term.name`, logging with its limit, the names of the sets (`self.addr_sets`); capirca/lib/iptables.py:421-439. -/
structure Ctx where
  cls : Cls
  filter : Str
  af : Ver
  track : Bool
  name : Str
  log : Bool := false
  logLimit : Option (String × String) := none
  sint : Option String := none
  dint : Option String := none
  srcSet : Option Str := none
  dstSet : Option Str := none

/-- `self.term_name`; capirca/lib/iptables.py:107. -/
def chainName (filter name : Str) : Str := filter.take 1 ++ '_' :: name

/-- `_FILTER_TOP_FORMAT`: the chain a rule is appended to; capirca/lib/iptables.py:38, 423-424, ipset.py:43. -/
def Ctx.top (x : Ctx) : Str := if x.cls.inFilter then x.filter else chainName x.filter x.name

/-- One direction of `_GenerateAddressStatement`; capirca/lib/iptables.py:540-562, ipset.py:120-160. The sets of
`ipset` are used only if both addresses are given, which is so except in the rules for excluded addresses, and those
do not occur with sets. -/
def addrArgs (x : Ctx) (source : Bool) (a : Option Net) : List Arg :=
  match a with
  | none => []
  | some n =>
    if n.eqv (allIps x.af) then
      match if source then x.srcSet else x.dstSet with
      | none => []
      | some s => [.w "-m", .w "set", .w "--match-set", .name s, .w (if source then "src" else "dst")]
    else [.w (if source then "-s" else "-d"), .pfx n.ver n.addr n.plen]

/-- `log_jump`; capirca/lib/iptables.py:434-439. -/
def logArgs (x : Ctx) : List Arg :=
  (match x.logLimit with
   | none => []
   | some l => [.w "-m", .w "--limit", .w (l.1 ++ "/" ++ l.2)]) ++
  [.w "-j", .w "LOG", .w "--log-prefix", .name x.name]

/-- The options added for protocols without a module of their own; capirca/lib/iptables.py:452-461. -/
def u32Opts : String → List (List Arg)
  | "hopopt" => [[.w "-m", .w "u32", .w "--u32", .w "0x3&0xff=0x0"]]
  | "fragment" => [[.w "-m", .w "u32", .w "--u32", .w "0x3&0xff=0x2c"]]
  | _ => []

/-- `proto`; capirca/lib/iptables.py:444-461. The empty protocol is that of the rules for excluded addresses. -/
def protoArgs (proto : String) : List Arg :=
  if proto = "" ∨ proto = "hopopt" ∨ proto = "fragment" then [] else [.w "-p", .w (protoWord proto)]

/-- The state option for new connections; capirca/lib/iptables.py:463-480. `'state' in option` holds exactly for the
options with the word `state`. -/
def stateOpts (x : Ctx) (proto : String) (itype : Option Nat) (action : List Arg) (options : List (List Arg)) :
    List (List Arg) :=
  if x.track && (proto ≠ "icmpv6" || itype == some 128 || itype == some 139) then
    if !(options.any fun o => o.contains (.w "state")) && action.contains (.w "ACCEPT") then
      [[.w "-m", .w "state", .w "--state", .list ["NEW", "ESTABLISHED", "RELATED"]]]
    else []
  else []

/-- `sorted(set(l))`; capirca/lib/iptables.py:483-484. -/
def sortedSet (l : List String) : List String := isort (fun a b => decide (a ≤ b)) l.eraseDups

/-- `flags`; capirca/lib/iptables.py:482-487. -/
def flagArgs (tcpFlags : List String) (track : List String × List String) : List Arg :=
  if tcpFlags.isEmpty && track.1.isEmpty then []
  else [.w "--tcp-flags", .list (sortedSet (tcpFlags ++ track.1)), .list (sortedSet (tcpFlags ++ track.2))]

/-- `icmp`; capirca/lib/iptables.py:489-497. -/
def icmpArgs (proto : String) (itype code : Option Nat) : List Arg :=
  let c := if code = some 0 then none else code
  match itype with
  | none => (c.map fun n => Arg.w ("/" ++ toString n)).toList
  | some t => (if proto = "icmpv6" then [.w "-m", .w "icmp6", .w "--icmpv6-type"] else [.w "--icmp-type"]) ++ [.icmp t c]

/-- The variables `proto`, `icmp`, `options` changed in the loop over the ports; capirca/lib/iptables.py:516-528. -/
structure PState where
  proto : List Arg
  icmp : List Arg
  options : List (List Arg)

/-- `sport` or `dport` in the loops: nothing, or a statement with its direction; capirca/lib/iptables.py:507-508. -/
abbrev PortVar := Option (Bool × PortStmt)

/-- `re.search('multiport', ...)`; capirca/lib/iptables.py:510. -/
def PortVar.multi (v : PortVar) : Bool := (v.map fun s => s.2.1).getD false

/-- The text of a variable; capirca/lib/iptables.py:529. -/
def PortVar.args (v : PortVar) : List Arg := (v.map fun s => portArgs s.1 s.2).getD []

/-- One iteration of the inner loop after the swap; capirca/lib/iptables.py:516-537. -/
def portRule (x : Ctx) (proto : String) (flags src dst action : List Arg) (st : PState) (sp dp : PortVar) :
    PState × List Line :=
  let st := if proto = "icmpv6" then ⟨[], [], st.options ++ [st.proto, st.icmp]⟩ else st
  let st := if x.af = .v6 ∧ proto = "all" ∧ action.contains (.w "REJECT") then { st with proto := [] } else st
  let args := st.proto ++ (flags ++ (sp.args ++ (dp.args ++ (st.icmp ++ (src ++ (dst ++ (st.options.flatten ++
    ((x.sint.map fun i => [Arg.w "-i", .w i]).getD [] ++ (x.dint.map fun i => [Arg.w "-o", .w i]).getD []))))))))
  (st, (if x.log then [.rule x.top (args ++ logArgs x)] else []) ++ [.rule x.top (args ++ action)])

/-- The inner loop. The swap changes `sport` for the following iterations too; capirca/lib/iptables.py:508-537. -/
def dportLoop (x : Ctx) (proto : String) (flags src dst action : List Arg) :
    PortVar → List PortVar → PState → PState × List Line
  | _, [], st => (st, [])
  | sp, dp :: dps, st =>
    let v := if sp.multi && !dp.multi then (dp, sp) else (sp, dp)
    let r := portRule x proto flags src dst action st v.1 v.2
    let s := dportLoop x proto flags src dst action v.1 dps r.1
    (s.1, r.2 ++ s.2)

/-- The outer loop; capirca/lib/iptables.py:506-538. -/
def sportLoop (x : Ctx) (proto : String) (flags src dst action : List Arg) :
    List PortVar → List PortVar → PState → PState × List Line
  | [], _, st => (st, [])
  | sp :: sps, dps, st =>
    let r := dportLoop x proto flags src dst action sp dps st
    let s := sportLoop x proto flags src dst action sps dps r.1
    (s.1, r.2 ++ s.2)

/-- `sports`, `dports`: `['']` without ports; capirca/lib/iptables.py:499-504. -/
def portVars (source : Bool) (ps : List PortRange) : List PortVar :=
  if ps.isEmpty then [none] else (portStatements ps).map fun s => some (source, s)

/-- `_FormatPart`; capirca/lib/iptables.py:398-538. The caller's list of options is changed in place unless it is empty;
the result has the list as the caller sees it afterwards. -/
def formatPart (x : Ctx) (proto : String) (saddr : Option Net) (sport : List PortRange) (daddr : Option Net)
    (dport : List PortRange) (options : List (List Arg)) (tcpFlags : List String) (itype code : Option Nat)
    (track : List String × List String) (action : List Arg) : List (List Arg) × List Line :=
  let opts := options ++ u32Opts proto
  let opts := opts ++ stateOpts x proto itype action opts
  let r := sportLoop x proto (flagArgs tcpFlags track) (addrArgs x true saddr) (addrArgs x false daddr) action
    (portVars true sport) (portVars false dport) ⟨protoArgs proto, icmpArgs proto itype code, opts⟩
  (if options.isEmpty then [] else r.1.options, r.2)

/-! ### terms -/

/-- `self.options`, `tcp_flags`, `tcp_track_options`; capirca/lib/iptables.py:236-267. -/
structure OState where
  options : List (List Arg) := []
  tcpFlags : List String := []
  track : List (List String × List String) := []
deriving DecidableEq

/-- `_TCP_FLAGS_TABLE`; capirca/lib/iptables.py:50-59. -/
def flagTable : List (String × String) :=
  [("syn", "SYN"), ("ack", "ACK"), ("fin", "FIN"), ("rst", "RST"), ("urg", "URG"), ("psh", "PSH"), ("all", "ALL"),
   ("none", "NONE")]

/-- `_KNOWN_OPTIONS_MATCHERS`; capirca/lib/iptables.py:60-66. -/
def knownOption : String → List (List Arg)
  | "first-fragment" => [[.w "-m", .w "u32", .w "--u32", .w "4&0x3FFF=0x2000"]]
  | "initial" => [[.w "--syn"]]
  | "tcp-initial" => [[.w "--syn"]]
  | "sample" => [[]]
  | _ => []

/-- The options for established connections; capirca/lib/iptables.py:245-260. The list of options never contains
the text `ESTABLISHED` alone, so the test for it is left out. -/
def estStep (track : Bool) (protocol : List String) (st : OState) (opt : String) : Except Err OState :=
  if startsWith "established" opt || startsWith "tcp-established" opt then
    if startsWith "tcp-established" opt && protocol != ["tcp"] then .error (.raised "TcpEstablishedError")
    else if track then
      .ok { st with options := st.options ++ [[.w "-m", .w "state", .w "--state", .list ["ESTABLISHED", "RELATED"]]] }
    else if protocol = ["tcp"] then
      .ok { st with track := [(["ACK"], ["ACK"]), (["SYN", "FIN", "ACK", "RST"], ["RST"])] }
    else .ok st
  else .ok st

/-- One option; capirca/lib/iptables.py:238-267. -/
def optStep (track : Bool) (protocol : List String) (st : OState) (opt : String) : Except Err OState := do
  let st ← estStep track protocol st opt
  .ok { st with
    tcpFlags := st.tcpFlags ++ (flagTable.filter fun e => startsWith e.1 opt).map Prod.snd
    options := st.options ++ knownOption opt }

/-- The loop over the options; capirca/lib/iptables.py:235-267. -/
def optLoop (track : Bool) (protocol : List String) : List String → OState → Except Err OState
  | [], st => .ok st
  | o :: os, st => do
    let st ← optStep track protocol st o
    optLoop track protocol os st

/-- `packet_length` and `fragment_offset`; capirca/lib/iptables.py:268-274. -/
def spanOpts (t : Term) : List (List Arg) :=
  (if t.packetLength.isEmpty then [] else [[.w "-m", .w "length", .w "--length", .span "" t.packetLength]]) ++
  (if t.fragmentOffset.isEmpty then [] else [[.w "-m", .w "u32", .w "--u32", .span "4&0x1FFF=" t.fragmentOffset]])

/-- One rule to be formatted: source, destination, type, code, protocol, flags; capirca/lib/iptables.py:288-294. -/
abbrev Combo := Net × Net × Option Nat × Option Nat × String × (List String × List String)

/-- The nested loops; capirca/lib/iptables.py:288-293. -/
def combos (sas das : List Net) (types codes : List (Option Nat)) (protos : List String)
    (track : List (List String × List String)) : List Combo :=
  sas.flatMap fun s => das.flatMap fun d => types.flatMap fun i => codes.flatMap fun c => protos.flatMap fun p =>
    (if track.isEmpty then [([], [])] else track).map fun k => (s, d, i, c, p, k)

/-- The bodies of the nested loops, with the list of options handed on; capirca/lib/iptables.py:294-309. -/
def comboRules (x : Ctx) (t : Term) (tcpFlags : List String) (action : List Arg) :
    List Combo → List (List Arg) → List (List Arg) × List Line
  | [], opts => (opts, [])
  | (s, d, i, c, p, k) :: cs, opts =>
    let r := formatPart x p (some s) t.sourcePort (some d) t.destinationPort opts tcpFlags i c k action
    let r' := comboRules x t tcpFlags action cs r.1
    (r'.1, r.2 ++ r'.2)

/-- The rules for excluded addresses; capirca/lib/iptables.py:279-286. -/
def excludeRules (x : Ctx) (s d : Side) : List Line :=
  let y := { x with log := false, sint := none, dint := none }
  (s.exc.flatMap fun n => (formatPart y "" (some n) [] none [] [] [] none none ([], []) [.w "-j", .w "RETURN"]).2) ++
  (d.exc.flatMap fun n => (formatPart y "" none [] (some n) [] [] [] none none ([], []) [.w "-j", .w "RETURN"]).2)

/-- `_CalculateAddrList` of `ipset`: the addresses; capirca/lib/ipset.py:93-118. -/
def setList (af : Ver) (inc exc : List Net) : Except Err (List Net) :=
  let l := (orAll af inc).filter fun n => n.ver == af
  if exc.isEmpty then .ok l else addressListExclude l (exc.filter fun n => n.ver == af) true

/-- `_GenerateSetName`; capirca/lib/ipset.py:162-168. -/
def setName (af : Ver) (name suffix : Str) : Str :=
  let sfx := if af = .v6 then suffix ++ "-v6".toList else suffix
  let n := if name.length + sfx.length + 1 > 31 then name.take (31 - sfx.length - 1) else name
  n ++ '-' :: sfx

/-- A set: its name and contents; capirca/lib/ipset.py:47-51. -/
abbrev IpSet := Str × List Net

/-- The set of one direction, if there is one; capirca/lib/ipset.py:113-117. -/
def setOf (af : Ver) (name suffix : Str) (l : List Net) : Option IpSet :=
  if l.length > 1 then some (setName af name suffix, l) else none

/-- `self._CalculateAddresses` of the class: addresses and sets; capirca/lib/iptables.py:317-396, ipset.py:56-118. -/
def addresses (c : Cls) (af : Ver) (t : Term) : Except Err ((Side × Side) × Option IpSet × Option IpSet) :=
  if c.sets then do
    let s ← setList af t.sourceAddress t.sourceAddressExclude
    let d ← setList af t.destinationAddress t.destinationAddressExclude
    let one := fun l : List Net => if l.length > 1 then [allIps af] else l
    .ok ((⟨one s, []⟩, ⟨one d, []⟩), setOf af t.name "src".toList s, setOf af t.name "dst".toList d)
  else do
    let r ← calculate af t.sourceAddress t.sourceAddressExclude t.destinationAddress t.destinationAddressExclude
    .ok (r, none, none)

/-- `icmp_types`; capirca/lib/iptables.py:216-220. -/
def icmpTypes (t : Term) (protocol : List String) (af : Ver) : Except Err (List (Option Nat)) :=
  if t.icmpType.isEmpty then .ok [none]
  else normalizeIcmpTypes t.icmpType protocol (.name (if af = .v6 then "inet6" else "inet"))

/-- `icmp_code`; capirca/lib/iptables.py:275-277. -/
def icmpCodes (t : Term) : List (Option Nat) := if t.icmpCode.isEmpty then [none] else t.icmpCode.map some

/-- What printing a term gives: the lines, `self.options` afterwards, the sets (`self.addr_sets`);
capirca/lib/iptables.py:315, ipset.py:47-51. -/
structure Printed where
  lines : List Line := []
  options : List (List Arg) := []
  srcSet : Option IpSet := none
  dstSet : Option IpSet := none

/-- `-N term` and the first jump; capirca/lib/iptables.py:140-145. -/
def headLines (c : Cls) (filter name : Str) : List Line :=
  (if c.newChain then [.newChain (chainName filter name)] else []) ++
  (if c.preJump then [.rule filter [.w "-j", .name (chainName filter name)]] else [])

/-- The last jump; capirca/lib/iptables.py:311-313. -/
def tailLines (c : Cls) (filter name : Str) : List Line :=
  if c.postJump then [.rule filter [.w "-j", .name (chainName filter name)]] else []

/-- The part of `Term.__str__` after the addresses are known; capirca/lib/iptables.py:197-315. -/
def body (c : Cls) (filter : Str) (track : Bool) (af : Ver) (options : List (List Arg)) (r : ITerm)
    (protocol : List String) (action : String) (a : (Side × Side) × Option IpSet × Option IpSet) : Except Err Printed :=
  if a.1.1.inc.isEmpty || a.1.2.inc.isEmpty then .ok { options := options, srcSet := a.2.1, dstSet := a.2.2 }
  else do
    let types ← icmpTypes r.term protocol af
    let o ← optLoop track protocol r.term.option { options := options }
    let opts := o.options ++ spanOpts r.term
    let x : Ctx :=
      { cls := c, filter := filter, af := af, track := track, name := r.term.name, log := !r.term.logging.isEmpty,
        logLimit := r.logLimit, sint := r.term.sourceInterface, dint := r.term.destinationInterface,
        srcSet := a.2.1.map Prod.fst, dstSet := a.2.2.map Prod.fst }
    match actionArgs af action with
    | none => .error .typeError
    | some act =>
      let q := comboRules x r.term o.tcpFlags act
        (combos a.1.1.inc a.1.2.inc types (icmpCodes r.term) protocol o.track) opts
      .ok { lines := headLines c filter r.term.name ++ (excludeRules x a.1.1 a.1.2 ++ (q.2 ++ tailLines c filter r.term.name)),
            options := q.1, srcSet := a.2.1, dstSet := a.2.2 }

/-- `protocol`; capirca/lib/iptables.py:183-187. -/
def protoList (ps : List String) : List String := if ps.isEmpty then ["all"] else ps

/-- `Term.__str__` for given `self.options`, the protocols being those after `Term.__init__`;
capirca/lib/iptables.py:109-315. With prefixes, terms that accept are skipped (:171-181). -/
def printTerm (c : Cls) (filter : Str) (track : Bool) (af : Ver) (options : List (List Arg)) (r : ITerm)
    (ps : List String) : Except Err Printed :=
  if !Cisco.onPlatform c.platform r.term then .ok { options := options }
  else if (af = .v6 ∧ ps.contains "icmp") ∨ (af = .v4 ∧ ps.contains "icmpv6") then .ok { options := options }
  else if !r.term.verbatim.isEmpty then
    .ok { lines := (r.term.verbatim.filter fun v => v.1 == c.platform).map fun v => .raw v.2, options := options }
  else
    match r.term.action with
    | [] => .error .indexError
    | a :: _ =>
      if !r.term.sourcePrefix.isEmpty || !r.term.destinationPrefix.isEmpty then
        if a = "accept" ∨ a = "next" then .ok { options := options } else .error (.raised "UnsupportedFilterError")
      else if af = .v4 ∧ (protoList ps).contains "hopopt" then .ok { options := options }
      else do
        let ad ← addresses c af r.term
        body c filter track af options r (protoList ps) a ad

/-- `Term(...)` and `str`; capirca/lib/iptables.py:68-315, aclgenerator.py:121-133. -/
def renderTerm (c : Cls) (filter : Str) (track : Bool) (af : Ver) (r : ITerm) : Except Err Printed := do
  let ps ← termProtocols (r.term.protocol.map .str)
  printTerm c filter track af [] r (ps.map Proto.text)

/-- `str` twice on the same term object; capirca/lib/iptables.py:109-315. -/
def printTwice (c : Cls) (filter : Str) (track : Bool) (af : Ver) (r : ITerm) : Except Err (Printed × Printed) := do
  let ps ← termProtocols (r.term.protocol.map .str)
  let a ← printTerm c filter track af [] r (ps.map Proto.text)
  let b ← printTerm c filter track af a.options r (ps.map Proto.text)
  .ok (a, b)

/-! ### filters -/

/-- A filter of the policy: name and further options of the header for the platform (one target), terms;
capirca/lib/iptables.py:703-709. -/
structure Filter where
  name : Str
  options : List String := []
  terms : List ITerm := []

/-- The variables that outlive a filter in `_TranslatePolicy`; capirca/lib/iptables.py:697-701. -/
structure TState where
  default : Option String := none
  stateful : Bool := true

/-- Options of a target; capirca/lib/iptables.py:640, 698-699, ipset.py:179-180. -/
def goodOptions (c : Cls) : List String :=
  ["ACCEPT", "DROP", "inet", "inet6", "nostate", "abbreviateterms", "truncateterms", "noverbose"] ++
  (if c.sets then ["exists"] else [])

/-- `filter_type`; capirca/lib/iptables.py:726-736. -/
def filterType (options : List String) : Except Err Ver :=
  if options.contains "inet" && options.contains "inet6" then .error (.raised "UnsupportedFilterError")
  else .ok (if options.contains "inet6" then .v6 else .v4)

/-- The default action after the filter; capirca/lib/iptables.py:738-747. The name of the filter is one of the target's
options, which are looked at if there are more than one. -/
def defaultAction (c : Cls) (f : Filter) (d : Option String) : Option String :=
  let d := if c.platform = "iptables" ∧ f.name = "FORWARD".toList then some "DROP" else d
  if f.options.isEmpty then d
  else (String.ofList f.name :: f.options).foldl (fun d o => if o = "ACCEPT" ∨ o = "DROP" then some o else d) d

/-- The term loop of `_TranslatePolicy`; `none` for terms left out; capirca/lib/iptables.py:756-783. -/
def prepare (options : List String) (stateful : Bool) (af : Ver) (r : ITerm) : Except Err (Option ITerm) := do
  let name ← fixTermLength abbreviations 24 r.term.name (options.contains "abbreviateterms")
    (options.contains "truncateterms")
  if r.term.logging.isEmpty && r.logLimit.isSome then .error (.raised "LimitButNoLogError")
  else
    let t ← fixHighPorts { defaultProtocol := "all" } { r.term with name := name } (if af = .v6 then "inet6" else "inet")
      stateful
    if r.expired then .ok none
    else .ok (some { r with term := t })

/-- A translated filter; capirca/lib/iptables.py:785-786. -/
structure Out where
  name : Str
  af : Ver
  default : Option String
  stateful : Bool
  terms : List ITerm

/-- One filter of `_TranslatePolicy`; capirca/lib/iptables.py:703-786. The check for duplicate names comes after the other
checks of the terms (the code interleaves them, which decides only which error is raised). -/
def translateFilter (c : Cls) (st : TState) (f : Filter) : Except Err (TState × Out) := do
  if f.options.any fun o => !(goodOptions c).contains o then .error (.raised "UnsupportedTargetOptionError")
  else
    let stateful := st.stateful && !f.options.contains "nostate"
    let af ← filterType f.options
    let d := defaultAction c f st.default
    let kept ← listM (prepare f.options stateful af) f.terms
    let names ← listM (fun r : ITerm => fixTermLength abbreviations 24 r.term.name (f.options.contains "abbreviateterms")
      (f.options.contains "truncateterms")) f.terms
    if Cisco.hasDup names then .error (.raised "DuplicateTermError")
    else .ok (⟨d, stateful⟩, ⟨f.name, af, d, stateful, kept.filterMap id⟩)

/-- `_TranslatePolicy`; capirca/lib/iptables.py:692-786. -/
def translate (c : Cls) : TState → List Filter → Except Err (List Out)
  | _, [] => .ok []
  | st, f :: fs => do
    let (st, o) ← translateFilter c st f
    let os ← translate c st fs
    .ok (o :: os)

/-- The first lines of a filter; capirca/lib/iptables.py:826-837. -/
def filterHead (c : Cls) (o : Out) : List Line :=
  if o.name = "INPUT".toList ∨ o.name = "OUTPUT".toList ∨ o.name = "FORWARD".toList then
    match o.default with
    | some d => [.policy o.name d]
    | none => if c.platform = "speedway" then [.policy o.name "DROP"] else []
  else [.newChain o.name]

/-- The printed terms of a filter; capirca/lib/iptables.py:838-842. -/
def filterTerms (c : Cls) (o : Out) : Except Err (List Printed) := listM (renderTerm c o.name o.stateful o.af) o.terms

/-- One printed filter; capirca/lib/iptables.py:810-842. -/
def printFilter (c : Cls) (o : Out) : Except Err (List Line × List IpSet) := do
  let ps ← filterTerms c o
  .ok (filterHead c o ++ ps.flatMap Printed.lines, ps.flatMap fun p => p.srcSet.toList ++ p.dstSet.toList)

/-- `Iptables(policy)` and `str`: the lines and (for `ipset`) the sets; capirca/lib/iptables.py:692-848,
ipset.py:183-226. -/
def render (c : Cls) (fs : List Filter) : Except Err (List Line × List IpSet) := do
  let os ← translate c {} fs
  let rs ← listM (printFilter c) os
  .ok (rs.flatMap Prod.fst, rs.flatMap Prod.snd)

/-- `_BuildTokens`; capirca/lib/iptables.py:646-683. -/
def tables (c : Cls) : Tables where
  platform := c.platform
  tokens := (baseTables c.platform).tokens ++
    ["counter", "destination_interface", "destination_prefix", "fragment_offset", "icmp_code", "logging", "log_limit",
     "owner", "packet_length", "routing_instance", "source_interface", "source_prefix"]
  subTokens := [("option", ["established", "first-fragment", "initial", "sample", "tcp-established", "tcp-initial", "syn",
      "ack", "fin", "rst", "urg", "psh", "all", "none"]),
    ("action", ["accept", "deny", "next", "reject", "reject-with-tcp-rst"]),
    ("icmp_type", (icmp4 ++ icmp6).map Prod.fst)]
  warnOnly := warnIfUnsupported

end Iptables
end Verif
