import Verif.Model.Aclgenerator
import Verif.Model.Summarizer

/-!
Model of capirca/lib/cisco.py and of its subclasses ciscoxr.py, cisconx.py, arista.py, brocade.py.

A rendered line is a list of tokens (the text split at blanks). Numbers, addresses and prefixes are tokens of
their own: their decimal or hexadecimal spelling is not modelled. Remark lines (names, comments, owner) and
revision tags are not modelled; they have no effect on the device.
-/

namespace Verif
namespace Cisco
open Policy Aclgenerator Nacaddr Summarizer

/-- A blank-separated piece of a rendered line. -/
inductive Tok where
  | w (s : String)
  | num (n : Int)
  | ip (v : Ver) (x : Nat)
  | pfx (v : Ver) (x : Nat) (len : Nat)
deriving DecidableEq, Repr

/-- A rendered line other than a remark: an entry made by the generator, or verbatim text. -/
inductive Line where
  | ace (toks : List Tok)
  | raw (s : String)
deriving DecidableEq, Repr

/-- Class attributes `_PLATFORM`, `_PROTO_INT`; capirca/lib/cisco.py:911-916, ciscoxr.py:24-27,
cisconx.py:36-39, arista.py:37-40. -/
structure Cfg where
  platform : String
  protoInt : Bool

/-- capirca/lib/cisco.py:908-916. -/
def ios : Cfg := ⟨"cisco", true⟩
/-- capirca/lib/ciscoxr.py:21-27. -/
def xr : Cfg := ⟨"ciscoxr", false⟩
/-- capirca/lib/cisconx.py:29-39. -/
def nx : Cfg := ⟨"cisconx", false⟩
/-- capirca/lib/arista.py:29-40. -/
def eos : Cfg := ⟨"arista", false⟩
/-- `_TERM_REMARK` is about remarks, which are not modelled; capirca/lib/brocade.py:20-32. -/
def brocade : Cfg := ⟨"brocade", false⟩

/-- `_ACTION_TABLE.get(action)` as tokens, `none` for `None`; capirca/lib/cisco.py:28-34. -/
def actionTable : List (String × List Tok) :=
  [("accept", [.w "permit"]), ("deny", [.w "deny"]), ("reject", [.w "deny"]),
   ("next", [.w "!", .w "next"]), ("reject-with-tcp-rst", [.w "deny"])]

/-! ### extended lists -/

/-- `ALLOWED_PROTO_STRINGS` after `__init__` has added the number of `ipip`;
capirca/lib/cisco.py:446-448, 471-472. -/
def allowedProtos : List Proto :=
  (["eigrp", "gre", "icmp", "igmp", "igrp", "ip", "ipinip", "nos", "pim", "tcp", "udp", "sctp", "ahp"].map .str) ++
  [.num 4]

/-- `self.PROTO_MAP.get(proto)`, `none` for `None`; capirca/lib/cisco.py:522. Numbers are not keys. -/
def protoGet : Proto → Option Proto
  | .str s => (protoMap.lookup s).map .num
  | .num _ => none

/-- `protocol` with `proto_int`: `none` stands for `None`; capirca/lib/cisco.py:521-523. -/
def protoInts (ps : List Proto) : List (Option Proto) :=
  ps.map fun p => if allowedProtos.contains p then some p else protoGet p

/-- `protocol`; capirca/lib/cisco.py:510-531. -/
def protocols (c : Cfg) (af : Ver) (ps : List Proto) : List (Option Proto) :=
  let l :=
    if ps.isEmpty then
      if af = .v6 then [some (.str "ipv6")]
      else if c.platform = "ciscoxr" then [some (.str "ipv4")]
      else [some (.str "ip")]
    else if ps = [.str "hopopt"] then [some (.str "hbh")]
    else if c.protoInt then protoInts ps
    else ps.map some
  if c.platform = "arista" then
    l.map fun p =>
      if p = some (.str "esp") then some (.str "50") else if p = some (.str "ah") then some (.str "51") else p
  else l

/-- An entry of `source_address` in the rendering: `'any'`, a network, or a network with a discontiguous
mask; capirca/lib/cisco.py:533-572. -/
inductive Addr where
  | any
  | net (n : Net)
  | dsm (d : DSM)

/-- The addresses of the rendered family without the excluded ones; capirca/lib/cisco.py:537-544, 557-564. -/
def leftover (af : Ver) (inc exc : List Net) : Except Err (List Net) :=
  let a := inc.filter fun n => n.ver == af
  let e := exc.filter fun n => n.ver == af
  if e.isEmpty then .ok a else addressListExclude a e true

/-- Source or destination addresses of the rendered family; `none` if the term is skipped because no address
is left; capirca/lib/cisco.py:533-551, 553-572. -/
def addrs (af : Ver) (dsmo : Bool) (inc exc : List Net) : Except Err (Option (List Addr)) :=
  if inc.isEmpty then .ok (some [.any])
  else do
    let r ← leftover af inc exc
    if r.isEmpty then .ok none
    else if dsmo then .ok (some ((summarize r).map .dsm))
    else .ok (some (r.map .net))

/-- The address a dotted quad spells. -/
def quadTok : MaskText → Tok
  | .quad a b c d => .ip .v4 (((a * 256 + b) * 256 + c) * 256 + d)
  | .plen n => .num n

/-- `_GetIpString`; capirca/lib/cisco.py:673-698. -/
def ipString (c : Cfg) : Addr → Except Err (List Tok)
  | .any => .ok [.w "any"]
  | .net n =>
    if n.broadcast - n.addr + 1 > 1 then
      if n.ver = .v4 ∧ c.platform ≠ "arista" then .ok [.ip .v4 n.addr, .ip .v4 n.hostmask]
      else .ok [.pfx n.ver n.addr n.plen]
    else .ok [.w "host", .ip n.ver n.addr]
  | .dsm d => do
    let (a, m) ← toDottedQuad d true false
    .ok [quadTok a, quadTok m]

/-- `_FixConsecutivePorts`; capirca/lib/cisco.py:771-789. -/
def fixConsecutivePorts (l : List PortRange) : List PortRange :=
  l.flatMap fun p => if p.1 + 1 = p.2 then [(p.1, p.1), (p.2, p.2)] else [p]

/-- `source_port`, `[()]` if there is none; capirca/lib/cisco.py:619-626. -/
def ports (l : List PortRange) : List (Option PortRange) :=
  if l.isEmpty then [none] else (fixConsecutivePorts l).map some

/-- `_PORTS_TCP` updated by `_ARISTA_PORTS_TCP`; capirca/lib/cisco.py:286-323, 399-403. -/
def eosTcp : List (Nat × String) :=
  [(143, "imap"), (88, "kerberos"), (179, "bgp"), (19, "chargen"), (514, "cmd"), (13, "daytime"), (9, "discard"),
   (53, "domain"), (7, "echo"), (512, "exec"), (79, "finger"), (21, "ftp"), (20, "ftp-data"), (70, "gopher"),
   (443, "https"), (113, "ident"), (194, "irc"), (543, "klogin"), (544, "kshell"), (389, "ldap"), (636, "ldaps"),
   (513, "login"), (515, "lpd"), (2049, "nfs"), (119, "nntp"), (496, "pim-auto-rp"), (109, "pop2"), (110, "pop3"),
   (1723, "pptp"), (25, "smtp"), (22, "ssh"), (111, "sunrpc"), (49, "tacacs"), (517, "talk"), (23, "telnet"),
   (540, "uucp"), (43, "whois"), (80, "www")]

/-- `_PORTS_UDP` updated by `_ARISTA_PORTS_UDP`; capirca/lib/cisco.py:324-351, 404-409. -/
def eosUdp : List (Nat × String) :=
  [(88, "kerberos"), (1812, "radius"), (1813, "radius-acct"), (512, "biff"), (68, "bootpc"), (67, "bootps"),
   (9, "discard"), (195, "dnsix"), (53, "domain"), (7, "echo"), (500, "isakmp"), (434, "mobile-ip"),
   (42, "nameserver"), (138, "netbios-dgm"), (137, "netbios-ns"), (2049, "nfs"), (123, "ntp"),
   (496, "pim-auto-rp"), (520, "rip"), (161, "snmp"), (162, "snmptrap"), (111, "sunrpc"), (514, "syslog"),
   (49, "tacacs"), (517, "talk"), (69, "tftp"), (37, "time"), (513, "who"), (177, "xdmcp")]

/-- `_TYPES_ICMP`; capirca/lib/cisco.py:352-372. -/
def eosIcmp : List (Nat × String) :=
  [(6, "alternate-address"), (31, "conversion-error"), (8, "echo"), (0, "echo-reply"), (16, "information-reply"),
   (15, "information-request"), (18, "mask-reply"), (17, "mask-request"), (32, "mobile-redirect"),
   (12, "parameter-problem"), (5, "redirect"), (9, "router-advertisement"), (10, "router-solicitation"),
   (4, "source-quench"), (11, "time-exceeded"), (14, "timestamp-reply"), (13, "timestamp-request"),
   (30, "traceroute"), (3, "unreachable")]

/-- `PortMap.GetProtocol(port, proto, 'arista')`; capirca/lib/cisco.py:411-441. -/
def portName (port : Nat) (proto : Option Proto) : Tok :=
  let tbl := match proto with
    | some (.str "tcp") => eosTcp
    | some (.str "udp") => eosUdp
    | some (.str "icmp") => eosIcmp
    | _ => []
  match tbl.lookup port with
  | some s => .w s
  | none => .num port

/-- `_FormatPort`; capirca/lib/cisco.py:700-720. -/
def formatPort (c : Cfg) (proto : Option Proto) : Option PortRange → List Tok
  | none => []
  | some (a, b) =>
    let tok := fun p : Nat => if c.platform = "arista" then portName p proto else .num p
    if a ≠ b then [.w "range", tok a, tok b] else [.w "eq", tok a]

/-- `str(proto)` of a text read from the policy: a number text is a number token. Only the texts that
`Term.__init__` lets through are distinguished; capirca/lib/cisco.py:765. -/
def wordTok (s : String) : Tok :=
  match protoMap.find? fun e => toString e.2 == s with
  | some e => .num e.2
  | none => .w s

/-- `str(proto)`; capirca/lib/cisco.py:765. -/
def protoTok : Option Proto → Tok
  | none => .w "None"
  | some (.num n) => .num n
  | some (.str s) => wordTok s

/-- An option: `established`, `fragments`, `nexthop1 <family> <address>`, `log`, `dscp <value>`; the strings
put into `self.options`, capirca/lib/cisco.py:574-638. -/
inductive Opt where
  | established
  | fragments
  | nexthop (n : Net)
  | log
  | dscp (s : String)
deriving DecidableEq

/-- The tokens of an option; capirca/lib/cisco.py:580, 586, 613, 630, 638. -/
def Opt.toks : Opt → List Tok
  | .established => [.w "established"]
  | .fragments => [.w "fragments"]
  | .nexthop n => [.w "nexthop1", .w (if n.ver = .v4 then "ipv4" else "ipv6"), .ip n.ver n.addr]
  | .log => [.w "log"]
  | .dscp s => [.w "dscp", .w s]

/-- `established` and `fragments`; capirca/lib/cisco.py:574-586. -/
def flagOpts (protos : List (Option Proto)) (option : List String) : List Opt :=
  (if (protos.contains (some (.num 6)) || protos.contains (some (.str "tcp"))) &&
      (option.contains "tcp-established" || option.contains "established") then [.established] else []) ++
  (if protos.contains (some (.str "ip")) && (option.contains "fragments" || option.contains "is-fragment") then
    [.fragments] else [])

/-- Action and `nexthop1` option; capirca/lib/cisco.py:587-617. `nextIp` is `term.next_ip`. Without action and
next hop the variable is unbound. An action outside the table gives no token. -/
def actionOf (c : Cfg) (t : Term) (nextIp : List Net) : Except Err (List Tok × List Opt) :=
  match t.action with
  | a :: _ => .ok ((actionTable.lookup a).getD [], [])
  | [] =>
    if c.platform = "ciscoxr" ∧ nextIp ≠ [] ∧ ¬ t.option.contains "nexthop1" then
      match nextIp with
      | [n] =>
        if n.broadcast - n.addr + 1 > 1 then .error (.raised "CiscoNextIpError")
        else .ok ([.w "permit"], [.nexthop n])
      | _ => .error (.raised "CiscoNextIpError")
    else .error (.raised "UnboundLocalError")

/-- `log` and `dscp`; capirca/lib/cisco.py:628-638. -/
def tailOpts (t : Term) : Except Err (List Opt) :=
  match t.dscpMatch with
  | [] => .ok (if t.logging.isEmpty then [] else [.log])
  | [d] => .ok ((if t.logging.isEmpty then [] else [.log]) ++ [.dscp d])
  | _ => .error (.raised "ExtendedACLTermError")

/-- `_FixOptions`; capirca/lib/cisco.py:722-740. -/
def fixOptions (p : Option Proto) (opts : List Opt) : List Opt :=
  if p = some (.num 17) ∨ p = some (.str "udp") then opts.erase .established else opts

/-- `_TermletToStr`; capirca/lib/cisco.py:742-769; elements that are empty vanish. -/
def termlet (act : List Tok) (proto : Option Proto) (sa sp da dp : List Tok) (ty co : Option Nat)
    (opts : List Opt) : List Tok :=
  act ++ (protoTok proto :: (sa ++ (sp ++ (da ++ (dp ++
    ((ty.toList.map fun n : Nat => Tok.num n) ++ ((co.toList.map fun n : Nat => Tok.num n) ++ opts.flatMap Opt.toks)))))))

/-- The protocol as printed: `cisconx` calls icmpv6 icmp; capirca/lib/cisco.py:659-662. -/
def printedProto (c : Cfg) (af : Ver) (p : Option Proto) : Option Proto :=
  if c.platform = "cisconx" ∧ af = .v6 ∧ p = some (.str "icmpv6") then some (.str "icmp") else p

/-- The seven nested loops; capirca/lib/cisco.py:650-669. -/
def expand (c : Cfg) (af : Ver) (act : List Tok) (protos : List (Option Proto)) (sas das : List (List Tok))
    (sps dps : List (Option PortRange)) (types codes : List (Option Nat)) (opts : List Opt) : List (List Tok) :=
  sas.flatMap fun sa => das.flatMap fun da => sps.flatMap fun sp => dps.flatMap fun dp =>
    protos.flatMap fun p => types.flatMap fun ty => codes.map fun co =>
      termlet act (printedProto c af p) sa (formatPort c (printedProto c af p) sp) da
        (formatPort c (printedProto c af p) dp) ty co (fixOptions p opts)

/-- The term is rendered for the platform; capirca/lib/cisco.py:474-481. -/
def onPlatform (platform : String) (t : Term) : Bool :=
  (t.platform.isEmpty || t.platform.contains platform) &&
  !(!t.platformExclude.isEmpty && t.platformExclude.contains platform)

/-- icmp-types of the rendered family; capirca/lib/cisco.py:640-644. -/
def icmpTypesOf (t : Term) (af : Ver) : Except Err (List (Option Nat)) :=
  if t.icmpType.isEmpty then .ok [none] else normalizeIcmpTypes t.icmpType t.protocol (.num af.num)

/-- `Term.__str__` after the tests for platform, family and verbatim; capirca/lib/cisco.py:510-671. -/
def termBody (c : Cfg) (af : Ver) (dsmo : Bool) (t : Term) (ps : List Proto) (nextIp : List Net) :
    Except Err (List Line) := do
  let protos := protocols c af ps
  let src ← addrs af dsmo t.sourceAddress t.sourceAddressExclude
  match src with
  | none => .ok []
  | some src =>
    let dst ← addrs af dsmo t.destinationAddress t.destinationAddressExclude
    match dst with
    | none => .ok []
    | some dst => do
      let (act, hop) ← actionOf c t nextIp
      let tail ← tailOpts t
      let types ← icmpTypesOf t af
      let codes := if t.icmpCode.isEmpty then [none] else t.icmpCode.map some
      let sas ← listM (ipString c) src
      let das ← listM (ipString c) dst
      .ok ((expand c af act protos sas das (ports t.sourcePort) (ports t.destinationPort) types codes
        (flagOpts protos t.option ++ (hop ++ tail))).map .ace)

/-- The verbatim lines for a platform; capirca/lib/cisco.py:502-508. -/
def verbatimLines (platform : String) (t : Term) : List Line :=
  (t.verbatim.filter fun v => v.1 == platform).map fun v => .raw v.2

/-- `Term.__init__` and `Term.__str__`; capirca/lib/cisco.py:453-671. -/
def renderTerm (c : Cfg) (af : Ver) (dsmo : Bool) (t : Term) (nextIp : List Net) : Except Err (List Line) := do
  let ps ← termProtocols (t.protocol.map .str)
  if !onPlatform c.platform t then .ok []
  else if (af = .v6 ∧ t.protocol.contains "icmp") ∨ (af = .v4 ∧ t.protocol.contains "icmpv6") then .ok []
  else if !t.verbatim.isEmpty then .ok (verbatimLines c.platform t)
  else termBody c af dsmo t ps nextIp

/-! ### standard lists -/

/-- The address part of a standard entry: numbered lists and named lists differ; capirca/lib/cisco.py:139-194. -/
def standardAddr (c : Cfg) (numbered : Bool) (n : Net) : List Tok :=
  if n.plen = 32 then (if numbered then [.ip .v4 n.addr] else [.w "host", .ip .v4 n.addr])
  else if !numbered ∧ c.platform = "arista" then [.pfx .v4 n.addr n.plen]
  else [.ip .v4 n.addr, .ip .v4 n.hostmask]

/-- `TermStandard.__init__`; capirca/lib/cisco.py:67-104. `' dscp' + list` raises `TypeError`. -/
def standardCheck (t : Term) : Except Err Unit :=
  if !t.protocol.isEmpty || !t.icmpType.isEmpty || !t.sourceAddress.isEmpty || !t.sourceAddressExclude.isEmpty ||
      !t.destinationAddress.isEmpty || !t.destinationAddressExclude.isEmpty || !t.option.isEmpty ||
      !t.sourcePort.isEmpty || !t.destinationPort.isEmpty then .error (.raised "StandardAclTermError")
  else if !t.dscpMatch.isEmpty then .error .typeError
  else .ok ()

/-- `TermStandard.__str__`; capirca/lib/cisco.py:106-196. `self.term.action[0]` of a term without action
raises `IndexError`. -/
def renderStandard (c : Cfg) (name : Str) (t : Term) : Except Err (List Line) :=
  if !onPlatform c.platform t then .ok []
  else if !t.verbatim.isEmpty then .ok (verbatimLines c.platform t)
  else
    match t.action with
    | [] => .error .indexError
    | a :: _ =>
      let act := (actionTable.lookup a).getD [.w "None"]
      let numbered := !name.isEmpty && name.all PyStr.isDigit
      let pre := if numbered then [.w "access-list", .w (String.ofList name)] else []
      let log := if t.logging.isEmpty then [] else [.w "log"]
      let v4 := t.address.filter fun n => n.ver != .v6
      let as := if v4.isEmpty then [[.w "any"]] else v4.map (standardAddr c numbered)
      .ok (as.map fun a => .ace (pre ++ (act ++ (a ++ log))))

/-! ### object groups -/

/-- A network object group; capirca/lib/cisco.py:252-265. -/
structure NetGroup where
  name : String
  af : Ver
  nets : List Net

/-- One address list of one term in `ObjectGroup.__str__`: a group is added unless one with the name is there;
capirca/lib/cisco.py:252-265. -/
def addGroup (af : Ver) (gs : List NetGroup) (l : List Net) : List NetGroup :=
  match l.filter fun n => n.ver == af with
  | [] => gs
  | n :: ns => if gs.any fun g => g.name == n.parent then gs else gs ++ [⟨n.parent, af, n :: ns⟩]

/-- The network groups of `ObjectGroup.__str__`; capirca/lib/cisco.py:235-265. -/
def netGroups (af : Ver) (ts : List Term) : List NetGroup :=
  ts.foldl (fun gs t => addGroup af (addGroup af gs t.sourceAddress) t.destinationAddress) []

/-- The port groups of `ObjectGroup.__str__`: a group `a-b` contains `range a b` (or `eq a`);
capirca/lib/cisco.py:267-278. Network and port groups are printed interleaved. -/
def portGroups (ts : List Term) : List PortRange :=
  (ts.flatMap fun t => t.sourcePort ++ t.destinationPort).foldl
    (fun gs p => if gs.contains p then gs else gs ++ [p]) []

/-- A reference in an object-group entry; capirca/lib/cisco.py:887-905. -/
inductive GTok where
  | tok (t : Tok)
  | netGroup (name : String)
  | portGroup (lo hi : Nat)
deriving DecidableEq, Repr

/-- The protocols of an object-group entry: `extra` are the additional names of `CiscoXRObjectGroupTerm`;
capirca/lib/cisco.py:845-857, ciscoxr.py:73-74. -/
def groupProtocols (extra : List String) (platform : String) (af : Ver) (ps : List Proto) : List (Option Proto) :=
  if ps.isEmpty then
    if af = .v6 then [some (.str "ipv6")]
    else if platform = "ciscoxr" then [some (.str "ipv4")]
    else [some (.str "ip")]
  else ps.map fun p => if (allowedProtos ++ extra.map Proto.str).contains p then some p else protoGet p

/-- The name of an address list: the parent token of its first address, of whatever family;
capirca/lib/cisco.py:859-868. -/
def groupName : List Net → String
  | [] => "any"
  | n :: _ => n.parent

/-- An address of an object-group entry; capirca/lib/cisco.py:889-893. An empty name vanishes. -/
def groupAddr (name : String) : List GTok :=
  if name = "" then [] else if name = "any" then [.tok (.w "any")] else [.netGroup name]

/-- `ObjectGroupTerm.__str__`; capirca/lib/cisco.py:809-905. The platform is `cisco` except for
`CiscoXRObjectGroupTerm`. -/
def renderGroupTerm (extra : List String) (platform : String) (af : Ver) (t : Term) :
    Except Err (List (Sum (List GTok) String)) := do
  let ps ← termProtocols (t.protocol.map .str)
  if !onPlatform platform t then .ok []
  else if !t.verbatim.isEmpty then
    .ok ((t.verbatim.filter fun v => v.1 == platform).map fun v => .inr v.2)
  else
    match t.action with
    | [] => .error .indexError
    | a :: _ =>
      let act := (actionTable.lookup a).getD [.w "None"]
      let sps := if t.sourcePort.isEmpty then [none] else t.sourcePort.map some
      let dps := if t.destinationPort.isEmpty then [none] else t.destinationPort.map some
      let port := fun p : Option PortRange => p.toList.map fun r => GTok.portGroup r.1 r.2
      .ok (sps.flatMap fun sp => dps.flatMap fun dp => (groupProtocols extra platform af ps).map fun p =>
        .inl (act.map GTok.tok ++ (.tok (protoTok p) :: (groupAddr (groupName t.sourceAddress) ++ (port sp ++
          (groupAddr (groupName t.destinationAddress) ++ port dp))))))

/-! ### filters -/

/-- A term with the attributes the model of `policy.Term` leaves out: whether `expiration <= current_date`,
and `next_ip`; capirca/lib/cisco.py:1034-1050, 587-613. -/
structure RTerm where
  term : Term
  expired : Bool := false
  nextIp : List Net := []

/-- Filter types; capirca/lib/cisco.py:955-956. -/
inductive Kind where
  | extended | standard | objectGroup | objectGroup6 | inet6 | mixed | dsmo
deriving DecidableEq, Repr

/-- `good_filters`; capirca/lib/cisco.py:955-956, 975-984. -/
def kindOf : String → Except Err Kind
  | "extended" => .ok .extended
  | "standard" => .ok .standard
  | "object-group" => .ok .objectGroup
  | "object-group-inet6" => .ok .objectGroup6
  | "inet6" => .ok .inet6
  | "mixed" => .ok .mixed
  | "enable_dsmo" => .ok .dsmo
  | _ => .error (.raised "UnsupportedCiscoAccessListError")

/-- Address family of a rendered list for `FixHighPorts`: `object-group-inet6` counts as `inet`;
capirca/lib/cisco.py:1020-1023. -/
def afName (k : Kind) : String := if k = .inet6 then "inet6" else "inet"

/-- Has the list of names a repetition; capirca/lib/cisco.py:1011-1017. -/
def hasDup : List Str → Bool
  | [] => false
  | n :: ns => ns.contains n || hasDup ns

/-- The steps of the term loop before rendering: name length, high ports, address family, expiration; `none`
if the term is left out; capirca/lib/cisco.py:1019-1050. -/
def prepare (k : Kind) (r : RTerm) : Except Err (Option RTerm) := do
  let name ← fixTermLength abbreviations 62 r.term.name false false
  let t ← fixHighPorts {} { r.term with name := name } (afName k) false
  if t.restrictAddressFamily.isSome && t.restrictAddressFamily != some (afName k) then .ok none
  else if r.expired then .ok none
  else .ok (some { r with term := t })

/-- A rendered access list. `groups` holds the object groups. -/
structure Acl where
  name : Str
  kind : Kind
  groups : List NetGroup := []
  portGroups : List PortRange := []
  lines : List Line := []
  groupLines : List (Sum (List GTok) String) := []

/-- The terms kept by an object-group filter; capirca/lib/cisco.py:1070-1093. -/
def hasFamily (af : Ver) (t : Term) : Bool :=
  (t.sourceAddress.isEmpty || t.sourceAddress.any fun n => n.ver == af) &&
  (t.destinationAddress.isEmpty || t.destinationAddress.any fun n => n.ver == af)

/-- Reserved numbers of standard lists; capirca/lib/cisco.py:997-1009. -/
def reserved (name : Str) : Bool :=
  !name.isEmpty && name.all PyStr.isDigit &&
  ((1 ≤ PyStr.digitsVal name && PyStr.digitsVal name < 100) ||
   (1300 ≤ PyStr.digitsVal name && PyStr.digitsVal name < 2000))

/-- `filter_name.isdigit()`; capirca/lib/cisco.py:999, 1004. -/
def numeric (name : Str) : Bool := !name.isEmpty && name.all PyStr.isDigit

/-- Names of the object-group term class: `ciscoxr` has its own, all others use `cisco`;
capirca/lib/cisco.py:1115-1117, ciscoxr.py:67-74. -/
def groupPlatform (c : Cfg) : String := if c.platform = "ciscoxr" then "ciscoxr" else "cisco"

/-- `ALLOWED_PROTO_STRINGS` additions of `CiscoXRObjectGroupTerm`; capirca/lib/ciscoxr.py:73-74. -/
def groupExtra (c : Cfg) : List String := if c.platform = "ciscoxr" then ["pcp", "esp"] else []

/-- One rendered list: the loop over the terms and their `str`; capirca/lib/cisco.py:1011-1106, 1380-1384.
Duplicate names are looked for first (the code interleaves this with the other checks, which decides only which
error comes first); `Term.__init__` runs with `__str__`. -/
def renderList (c : Cfg) (name : Str) (k : Kind) (dsmo : Bool) (ts : List RTerm) : Except Err Acl := do
  if hasDup (ts.map fun r => r.term.name) then .error (.raised "CiscoDuplicateTermError")
  else
    let kept ← listM (prepare k) ts
    let rs := kept.filterMap id
    match k with
    | .extended => do
      let ls ← concatM (fun r : RTerm => renderTerm c .v4 dsmo r.term r.nextIp) rs
      .ok { name := name, kind := k, lines := ls }
    | .inet6 => do
      let ls ← concatM (fun r : RTerm => renderTerm c .v6 false r.term r.nextIp) rs
      .ok { name := name, kind := k, lines := ls }
    | .standard => do
      let _ ← listM (fun r : RTerm => standardCheck r.term) rs
      let ls ← concatM (fun r : RTerm => renderStandard c name r.term) rs
      .ok { name := name, kind := k, lines := ls }
    | .objectGroup => do
      let ts := (rs.map RTerm.term).filter (hasFamily .v4)
      let ls ← concatM (renderGroupTerm (groupExtra c) (groupPlatform c) .v4) ts
      .ok { name := name, kind := k, groups := netGroups .v4 ts, portGroups := portGroups ts, groupLines := ls }
    | .objectGroup6 => do
      let ts := (rs.map RTerm.term).filter (hasFamily .v6)
      let ls ← concatM (renderGroupTerm (groupExtra c) (groupPlatform c) .v6) ts
      .ok { name := name, kind := k, groups := netGroups .v6 ts, portGroups := portGroups ts, groupLines := ls }
    | _ => .ok { name := name, kind := k }

/-- `_AppendTargetByFilterType`: which types a platform can print; capirca/lib/cisco.py:1313-1334 (with
`_FilterCmd`, :1287-1311), ciscoxr.py:29-53, cisconx.py:49-83, arista.py:43-83. -/
def printable (c : Cfg) (k : Kind) : Except Err Unit :=
  if c.platform = "ciscoxr" then .ok ()
  else if c.platform = "cisconx" then
    if k = .standard ∨ k = .dsmo ∨ k = .mixed then .error (.raised "UnsupportedNXosAccessListError") else .ok ()
  else if c.platform = "arista" then
    if k = .objectGroup6 ∨ k = .dsmo ∨ k = .mixed then .error (.raised "UnsupportedEosAccessListError") else .ok ()
  else if k = .dsmo ∨ k = .mixed then .error (.raised "UnsupportedCiscoAccessListError")
  else .ok ()

/-- The checks of numeric names; capirca/lib/cisco.py:996-1009. -/
def nameCheck (name : Str) (k : Kind) : Except Err Unit :=
  if k = .extended ∧ reserved name then .error (.raised "UnsupportedCiscoAccessListError")
  else if k = .standard ∧ numeric name ∧ ¬ reserved name then .error (.raised "UnsupportedCiscoAccessListError")
  else .ok ()

/-- One list of a filter, translated and printed; capirca/lib/cisco.py:995-1113, 1347-1394. -/
def oneList (c : Cfg) (name outName : Str) (k : Kind) (dsmo : Bool) (ts : List RTerm) : Except Err Acl := do
  nameCheck name k
  let a ← renderList c outName k dsmo ts
  printable c k
  .ok a

/-- One filter: `options` are those of the header without `noverbose` and
`remove_duplicate_network_objectgroups`; a mixed filter gives two lists; capirca/lib/cisco.py:958-1113.
Without options the name is `None` and `.isdigit` raises `AttributeError` (for the types that test it; the model
raises it always). -/
def renderFilter (c : Cfg) (options : List String) (ts : List RTerm) : Except Err (List Acl) := do
  match options with
  | [] => .error .attributeError
  | name :: rest =>
    let k ← kindOf (rest.head?.getD "extended")
    let dsmo := rest.drop 1 |>.head? |>.any (· == "enable_dsmo")
    if k = .mixed then do
      let a ← oneList c name.toList name.toList .extended dsmo ts
      let b ← oneList c name.toList ("ipv6-".toList ++ name.toList) .inet6 false ts
      .ok [a, b]
    else do
      let a ← oneList c name.toList name.toList k dsmo ts
      .ok [a]

/-- `_BuildTokens`; capirca/lib/cisco.py:918-941, ciscoxr.py:55-65. -/
def tables (c : Cfg) : Tables where
  platform := c.platform
  tokens := (baseTables c.platform).tokens ++
    ["address", "restrict_address_family", "dscp_match", "icmp_code", "logging", "owner"] ++
    (if c.platform = "ciscoxr" then ["next_ip"] else [])
  subTokens := [("option", ["established", "tcp-established", "is-fragment", "fragments"]),
    ("action", ["accept", "deny", "reject", "next", "reject-with-tcp-rst"]),
    ("icmp_type", (icmp4 ++ icmp6).map Prod.fst)]
  warnOnly := warnIfUnsupported

end Cisco
end Verif
