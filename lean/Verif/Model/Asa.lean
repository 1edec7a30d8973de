import Verif.Model.Cisco

/-!
Model of capirca/lib/ciscoasa.py.

The lines are values instead of text. Remarks, which have no effect on the device, and revision tags are left out, except for
the lines that begin with `remark`, which are no commands of the device.
-/

namespace Verif
namespace Asa
open Policy Aclgenerator
open Cisco (Tok RTerm leftover icmpTypesOf onPlatform)

/-- An address of an entry; capirca/lib/ciscoasa.py:219-248. Only IPv4 addresses get this far. -/
inductive Addr where
  | any
  | host (x : Nat)
  | masked (x mask : Nat)
deriving DecidableEq, Repr

/-- An entry: action, protocol, addresses, ports, icmp-type and options; capirca/lib/ciscoasa.py:280-288. The ports are none
(any), one (`eq`) or two (`range`). `action` is `none` where `None` is printed. -/
structure Entry where
  action : Option String
  proto : String
  src : Addr := .any
  sport : List Tok := []
  dst : Addr := .any
  dport : List Tok := []
  icmp : Option Tok := none
  options : List String := []
deriving DecidableEq, Repr

/-- A line; capirca/lib/ciscoasa.py:84-86, 102, 280-288, 345-354. `bare` is a remark without `access-list`. -/
inductive Line where
  | clear (name : String)
  | entry (name : String) (e : Entry)
  | verbatim (s : String)
  | bare
deriving DecidableEq, Repr

/-- `_ACTION_TABLE`; capirca/lib/ciscoasa.py:29-35. -/
def actionTable : List (String × String) :=
  [("accept", "permit"), ("deny", "deny"), ("reject", "deny"), ("next", "! next"), ("reject-with-tcp-rst", "deny")]

/-- `_CISCO_PORTS_TCP` updated by `_PORTS_TCP`; capirca/lib/cisco.py:286-323, 375-388. -/
def tcpPorts : List (Nat × String) :=
  [(5190, "aol"), (1494, "citrix-ica"), (2748, "ctiqbe"), (1720, "h323"), (101, "hostname"), (143, "imap4"),
   (750, "kerberos"), (1352, "lotusnotes"), (139, "netbios-ssn"), (5631, "pcanywhere-data"), (1521, "sqlnet"),
   (179, "bgp"), (19, "chargen"), (514, "cmd"), (13, "daytime"), (9, "discard"), (53, "domain"), (7, "echo"),
   (512, "exec"), (79, "finger"), (21, "ftp"), (20, "ftp-data"), (70, "gopher"), (443, "https"), (113, "ident"),
   (194, "irc"), (543, "klogin"), (544, "kshell"), (389, "ldap"), (636, "ldaps"), (513, "login"), (515, "lpd"),
   (2049, "nfs"), (119, "nntp"), (496, "pim-auto-rp"), (109, "pop2"), (110, "pop3"), (1723, "pptp"), (25, "smtp"),
   (22, "ssh"), (111, "sunrpc"), (49, "tacacs"), (517, "talk"), (23, "telnet"), (540, "uucp"), (43, "whois"), (80, "www")]

/-- `_CISCO_PORTS_UDP` updated by `_PORTS_UDP`; capirca/lib/cisco.py:324-351, 389-396. -/
def udpPorts : List (Nat × String) :=
  [(750, "kerberos"), (5632, "pcanywhere-status"), (1645, "radius"), (1646, "radius-acct"), (5510, "secureid-udp"),
   (512, "biff"), (68, "bootpc"), (67, "bootps"), (9, "discard"), (195, "dnsix"), (53, "domain"), (7, "echo"),
   (500, "isakmp"), (434, "mobile-ip"), (42, "nameserver"), (138, "netbios-dgm"), (137, "netbios-ns"), (2049, "nfs"),
   (123, "ntp"), (496, "pim-auto-rp"), (520, "rip"), (161, "snmp"), (162, "snmptrap"), (111, "sunrpc"), (514, "syslog"),
   (49, "tacacs"), (517, "talk"), (69, "tftp"), (37, "time"), (513, "who"), (177, "xdmcp")]

/-- `PortMap.GetProtocol(port, proto)`; capirca/lib/cisco.py:352-372, 411-441. -/
def portName (port : Nat) (proto : String) : Tok :=
  let tbl :=
    if proto = "tcp" then tcpPorts else if proto = "udp" then udpPorts else if proto = "icmp" then Cisco.eosIcmp else []
  match tbl.lookup port with
  | some s => .w s
  | none => .num port

/-- The addresses of one side; capirca/lib/ciscoasa.py:112-137. Of excluded addresses without addresses nothing is left. -/
def addresses (inc exc : List Net) : Except Err (List (Option Net)) :=
  if inc.isEmpty then .ok [none]
  else do
    let l ← leftover .v4 inc exc
    .ok (l.map some)

/-- An address on the line; capirca/lib/ciscoasa.py:219-233. -/
def addrOf : Option Net → Addr
  | none => .any
  | some n => if 1 < n.broadcast - n.addr + 1 then .masked n.addr (2 ^ 32 - 1 - n.hostmask) else .host n.addr

/-- A condition on a port; capirca/lib/ciscoasa.py:250-265. -/
def portsOf (proto : String) : Option PortRange → List Tok
  | none => []
  | some (a, b) => if a ≠ b then [portName a proto, portName b proto] else [portName a proto]

/-- `[()]` or the ports; capirca/lib/ciscoasa.py:149-155. -/
def ports (l : List PortRange) : List (Option PortRange) := if l.isEmpty then [none] else l.map some

/-- `self.options`; capirca/lib/ciscoasa.py:139-161. The number 6 is never in the list of protocols, whose elements are
texts: `established` is never added. -/
def options (t : Term) : List String :=
  if t.logging.isEmpty then [] else if t.logging.contains "disable" then ["log", "disable"] else ["log"]

/-- `protocol`; capirca/lib/ciscoasa.py:105-110. -/
def protocols (t : Term) : List String := if t.protocol.isEmpty then ["ip"] else t.protocol

/-- The six nested loops; capirca/lib/ciscoasa.py:169-197. -/
def expand (act : Option String) (src dst : List (Option Net)) (sps dps : List (Option PortRange)) (protos : List String)
    (types : List (Option Nat)) (opts : List String) : List Entry :=
  src.flatMap fun s => dst.flatMap fun d => sps.flatMap fun sp => dps.flatMap fun dp => protos.flatMap fun p =>
    types.map fun ty =>
      { action := act, proto := p, src := addrOf s, sport := portsOf p sp, dst := addrOf d, dport := portsOf p dp,
        icmp := ty.map fun n => portName n "icmp", options := opts }

/-- The entries of a term; capirca/lib/ciscoasa.py:105-199. The action is looked at when there is something to print. -/
def entries (t : Term) : Except Err (List Entry) := do
  let src ← addresses t.sourceAddress t.sourceAddressExclude
  let dst ← addresses t.destinationAddress t.destinationAddressExclude
  let types ← icmpTypesOf t .v4
  match t.action with
  | [] => if src.isEmpty || dst.isEmpty then .ok [] else .error .indexError
  | a :: _ =>
    .ok (expand (actionTable.lookup a) src dst (ports t.sourcePort) (ports t.destinationPort) (protocols t) types (options t))

/-- `Term.__str__`; capirca/lib/ciscoasa.py:69-199. The loop over the verbatim texts ends after the first. -/
def render (name : String) (t : Term) : Except Err (List Line) :=
  if !onPlatform "ciscoasa" t then .ok []
  else if t.protocol.contains "icmpv6" then .ok [.bare, .bare]
  else
    match t.verbatim with
    | v :: _ => .ok (if v.1 = "ciscoasa" then [.verbatim v.2] else [])
    | [] => do
      let l ← entries t
      .ok (l.map (.entry name))

/-- A filter: the options of its header for the platform, none if the header is not for the platform, and its terms;
capirca/lib/ciscoasa.py:321-338. -/
structure Filter where
  options : List String := []
  terms : List RTerm := []

/-- The name as it is printed; capirca/lib/ciscoasa.py:322, capirca/lib/policy.py:1849-1865. -/
def nameOf (f : Filter) : String := f.options.head?.getD "None"

/-- One term of a filter; capirca/lib/ciscoasa.py:326-336. -/
def oneTerm (name : String) (r : RTerm) : Except Err (List Line) := if r.expired then .ok [] else render name r.term

/-- One filter; capirca/lib/ciscoasa.py:321-338, 343-358. -/
def oneFilter (f : Filter) : Except Err (List Line) := do
  let ls ← listM (oneTerm (nameOf f)) f.terms
  .ok (.clear (nameOf f) :: ls.flatMap id)

/-- All filters of a policy, whatever their platforms; capirca/lib/ciscoasa.py:316-362. -/
def translate (fs : List Filter) : Except Err (List Line) := do
  let ls ← listM oneFilter fs
  .ok (ls.flatMap id)

/-- `_BuildTokens`; capirca/lib/ciscoasa.py:299-314. -/
def tables : Tables where
  platform := "ciscoasa"
  tokens := (baseTables "ciscoasa").tokens ++ ["logging", "owner"]
  subTokens := [("option", ["established", "tcp-established"]),
    ("action", ["accept", "deny", "reject", "next", "reject-with-tcp-rst"]),
    ("icmp_type", (icmp4 ++ icmp6).map Prod.fst)]
  warnOnly := warnIfUnsupported

end Asa
end Verif
