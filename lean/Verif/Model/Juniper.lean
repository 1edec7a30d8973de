import Verif.Model.Cisco

/-!
Model of capirca/lib/juniper.py. The text of a term is modelled as its statements: a statement is the list of its
words, a block is a header word with statements. `Config.Append` is modelled on the text lines themselves.
Comments (`comment`, `owner`, address comments, repository tags) are not part of the statements.

The generator changes the term objects of the policy while it translates and while it prints; the functions
below return the changed object.
-/

namespace Verif
namespace Juniper
open Policy Aclgenerator Summarizer

/-! ### the configuration builder -/

/-- Attributes of `Config`; capirca/lib/juniper.py:67-85. `indent` never becomes negative without an exception when
the initial indent is not negative, but the model keeps it an integer. -/
structure Config where
  indent : Int := 0
  initial : Int := 0
  tabstop : Int := 4
  lines : List Str := []

/-- `line.find(sub) >= 0`; capirca/lib/juniper.py:112-116. -/
def has (sub line : Str) : Bool :=
  match line with
  | [] => sub.isEmpty
  | c :: cs => sub.isPrefixOf (c :: cs) || has sub cs

/-- `line.endswith(suffix)`; capirca/lib/juniper.py:106, 117. -/
def endsWith (suffix line : Str) : Bool := suffix.reverse.isPrefixOf line.reverse

/-- `Config.Append` up to the line itself: the closing brace; capirca/lib/juniper.py:106-109. -/
def closeBrace (c : Config) (line : Str) : Except Err Config :=
  if endsWith ['}'] line then
    if c.indent - c.tabstop < c.initial then .error (.raised "JuniperIndentationError")
    else .ok { c with indent := c.indent - c.tabstop }
  else .ok c

/-- The indented line; capirca/lib/juniper.py:110-111. A negative repetition gives no spaces. -/
def addLine (c : Config) (line : Str) : Config :=
  { c with lines := c.lines ++ [List.replicate c.indent.toNat ' ' ++ PyStr.strip line] }

/-- End of a comment; capirca/lib/juniper.py:112-115. -/
def closeComment (c : Config) (line : Str) : Except Err Config :=
  if !has ['/', '*'] line && has ['*', '/'] line then
    if c.indent - 1 < c.initial then .error (.raised "JuniperIndentationError")
    else .ok { c with indent := c.indent - 1 }
  else .ok c

/-- Begin of a comment and opening brace; capirca/lib/juniper.py:116-118. -/
def openLine (c : Config) (line : Str) : Config :=
  let c := if !has ['*', '/'] line && has ['/', '*'] line then { c with indent := c.indent + 1 } else c
  if endsWith [' ', '{'] line then { c with indent := c.indent + c.tabstop } else c

/-- `Config.Append(line)`; capirca/lib/juniper.py:92-118. -/
def append (c : Config) (line : Str) : Except Err Config := do
  let c ← closeBrace c line
  let c ← closeComment (addLine c line) line
  .ok (openLine c line)

/-- `Config.Append(line, verbatim=True)`; capirca/lib/juniper.py:102-104. -/
def appendVerbatim (c : Config) (line : Str) : Config := { c with lines := c.lines ++ [line] }

/-- A sequence of calls of `Append`; `true` marks verbatim lines. -/
def appendAll (c : Config) : List (Bool × Str) → Except Err Config
  | [] => .ok c
  | (true, l) :: ls => appendAll (appendVerbatim c l) ls
  | (false, l) :: ls => do
    let c ← append c l
    appendAll c ls

/-- The lines of `str(config)`; capirca/lib/juniper.py:86-90. -/
def finish (c : Config) : Except Err (List Str) :=
  if c.indent ≠ c.initial then .error (.raised "JuniperIndentationError") else .ok c.lines

/-- `Config(indent)`, a sequence of calls of `Append`, `str`; capirca/lib/juniper.py:80-118. -/
def build (initial : Nat) (ls : List (Bool × Str)) : Except Err (List Str) := do
  let c ← appendAll { indent := initial, initial := initial } ls
  finish c

/-! ### address lists -/

/-- `_MinimizePrefixes`; capirca/lib/juniper.py:726-758. -/
def minimizePrefixes (inc exc : List Net) : List Net × List Net :=
  let i := inc.filter fun n => !exc.any fun e => n.eqv e
  (i, exc.filter fun e => i.any fun n => e.subnetOf n)

/-! ### statements -/

/-- A word of a statement: a keyword or name, a number, a port range, a prefix, an address with the mask text of
`ToDottedQuad`. -/
inductive Tok where
  | w (s : String)
  | num (n : Nat)
  | range (a b : Nat)
  | pfx (v : Ver) (addr plen : Nat)
  | masked (a m : MaskText)
deriving DecidableEq, Repr

/-- A match condition in `from { }`. -/
inductive Cond where
  | leaf (ws : List Tok)
  | block (hd : String) (ls : List (List Tok))
deriving DecidableEq, Repr

/-- What follows the name of a term: `filter NAME;`, or the conditions (`none`: no `from`) and the actions (`none`:
no `then`; the flag tells the block form from the one-line form). -/
inductive Body where
  | filter
  | normal (conds : Option (List Cond)) (acts : Option (Bool × List (List Tok)))
deriving DecidableEq, Repr

/-- A printed term. -/
inductive Out where
  | verbatim (ls : List String)
  | term (inactive : Bool) (name : Str) (body : Body)
deriving DecidableEq, Repr

/-- Filter types a term can have; capirca/lib/juniper.py:155-173. -/
inductive TType where
  | inet | inet6 | bridge
deriving DecidableEq, Repr

/-- The name of a filter type; capirca/lib/juniper.py:155-173. -/
def TType.name : TType → String
  | .inet => "inet"
  | .inet6 => "inet6"
  | .bridge => "bridge"

/-- `AF_MAP.get(term_type)`; capirca/lib/juniper.py:343, aclgenerator.py:100-103. -/
def TType.af : TType → Ver
  | .inet6 => .v6
  | _ => .v4

/-- `_TERM_TYPE`: keywords per filter type; capirca/lib/juniper.py:155-173. `tcp-est` is `tcpEst`. -/
def kw (ty : TType) (k : String) : String :=
  match ty, k with
  | .inet, k => if k = "addr" then "address" else if k = "saddr" then "source-address"
      else if k = "daddr" then "destination-address" else k
  | .inet6, k => if k = "addr" then "address" else if k = "saddr" then "source-address"
      else if k = "daddr" then "destination-address" else if k = "protocol" then "next-header"
      else "next-header-except"
  | .bridge, k => if k = "addr" then "ip-address" else if k = "saddr" then "ip-source-address"
      else if k = "daddr" then "ip-destination-address" else if k = "protocol" then "ip-protocol"
      else "ip-protocol-except"

/-- `_TERM_TYPE[...]['tcp-est']`; capirca/lib/juniper.py:160, 166, 172. -/
def tcpEst : TType → List Tok
  | .bridge => [.w "tcp-flags", .w "\"(ack|rst)\""]
  | _ => [.w "tcp-established"]

/-- A policy term with the attributes the model of `policy.Term` leaves out. Texts are empty if the attribute is
not set. `expired` is `expiration <= current_date`. -/
structure JTerm where
  term : Term
  inactive : Bool := false
  expired : Bool := false
  nextIp : List Net := []
  routing : String := ""
  counter : String := ""
  policer : String := ""
  qos : String := ""
  lossPriority : String := ""
  dscpSet : String := ""
  trafficClassCount : String := ""
  encapsulate : String := ""
  decapsulate : String := ""

/-- `_Group` behind a keyword; capirca/lib/juniper.py:852-892 (`lc` has no effect there). -/
def group (hd : String) (l : List Tok) : List Tok :=
  if l.length > 1 then .w hd :: .w "[" :: (l ++ [.w "]"]) else .w hd :: l

/-- `_FormattedGroup` of a port range; capirca/lib/juniper.py:882-885. -/
def portTok (r : PortRange) : Tok := if r.1 = r.2 then .num r.1 else .range r.1 r.2

/-- A number or a range as given in the policy (`packet_length`, `fragment_offset`, `hop_limit`);
capirca/lib/juniper.py:487-492, 557-560. -/
def spanTok : List Nat → Tok
  | [] => .w ""
  | [a] => .num a
  | a :: b :: _ => .range a b

/-- An address to print: a network or one with a discontiguous mask; capirca/lib/juniper.py:344-427. -/
inductive JAddr where
  | net (n : Net)
  | dsm (d : DSM)

/-- The text of an address; capirca/lib/juniper.py:353-356, 376-386. -/
def addrTok : JAddr → Except Err Tok
  | .net n => .ok (.pfx n.ver n.addr n.plen)
  | .dsm d => do
    let (a, m) ← toDottedQuad d false true
    .ok (.masked a m)

/-- The two lists that are printed; capirca/lib/juniper.py:345-346, 367-374, 402-408. `address` has no excludes,
for which `_MinimizePrefixes` (not called there) changes nothing. -/
def addrLists (dsmo : Bool) (inc exc : List Net) : List JAddr × List JAddr :=
  if dsmo then ((summarize inc).map .dsm, (summarize exc).map .dsm)
  else ((minimizePrefixes inc exc).1.map .net, (minimizePrefixes inc exc).2.map .net)

/-- One address condition; `none` if the term is left out because it has addresses of the other family only (or
all are excluded); capirca/lib/juniper.py:343-362, 364-397, 399-432. -/
def addrCond (af : Ver) (dsmo : Bool) (hd : String) (inc exc : List Net) : Except Err (Option (List Cond)) := do
  let l := addrLists dsmo (inc.filter fun n => n.ver == af) (exc.filter fun n => n.ver == af)
  if l.1.isEmpty then .ok (if inc.isEmpty then some [] else none)
  else
    let is ← listM addrTok l.1
    let es ← listM addrTok l.2
    .ok (some [.block hd ((is.map fun t => [t]) ++ es.map fun t => [t, .w "except"])])

/-- `from_str` and `extra_actions` of one option; capirca/lib/juniper.py:235-281. -/
def optionStep (ty : TType) (protocol : List String) (acc : List (List Tok) × List String) (opt : String) :
    Except Err (List (List Tok) × List String) :=
  if startsWith "sample" opt then .ok (acc.1, acc.2 ++ ["sample"])
  else if startsWith "established" opt then
    if protocol = ["tcp"] ∧ [Tok.w "tcp-established"] ∉ acc.1 then .ok (acc.1 ++ [tcpEst ty], acc.2) else .ok acc
  else if startsWith "tcp-established" opt then
    if protocol = ["tcp"] then .ok (if tcpEst ty ∈ acc.1 then acc else (acc.1 ++ [tcpEst ty], acc.2))
    else .error (.raised "TcpEstablishedWithNonTcpError")
  else if startsWith "rst" opt then .ok (acc.1 ++ [[.w "tcp-flags", .w "\"rst\""]], acc.2)
  else if startsWith "initial" opt && protocol.contains "tcp" then .ok (acc.1 ++ [[.w "tcp-initial"]], acc.2)
  else if startsWith "first-fragment" opt then .ok (acc.1 ++ [[.w "first-fragment"]], acc.2)
  else .ok (acc.1 ++ [[.w opt]], acc.2)

/-- The option loop; capirca/lib/juniper.py:234-281. -/
def options (ty : TType) (protocol : List String) :
    List (List Tok) × List String → List String → Except Err (List (List Tok) × List String)
  | acc, [] => .ok acc
  | acc, o :: os => do
    let acc ← optionStep ty protocol acc o
    options ty protocol acc os

/-- `has_match_criteria`; capirca/lib/juniper.py:301-325. -/
def hasMatchCriteria (j : JTerm) : Bool :=
  let t := j.term
  !t.address.isEmpty || !t.dscpExcept.isEmpty || !t.dscpMatch.isEmpty || !t.destinationAddress.isEmpty ||
  !t.destinationPort.isEmpty || !t.destinationPrefix.isEmpty || !t.destinationPrefixExcept.isEmpty ||
  j.encapsulate != "" || !t.etherType.isEmpty || !t.flexibleMatchRange.isEmpty || !t.forwardingClass.isEmpty ||
  !t.forwardingClassExcept.isEmpty || !t.fragmentOffset.isEmpty || !t.hopLimit.isEmpty || !j.nextIp.isEmpty ||
  !t.port.isEmpty || !t.precedence.isEmpty || !t.protocol.isEmpty || !t.protocolExcept.isEmpty ||
  !t.sourceAddress.isEmpty || !t.sourcePort.isEmpty || !t.sourcePrefix.isEmpty || !t.sourcePrefixExcept.isEmpty ||
  !t.trafficType.isEmpty || t.ttl.getD 0 != 0

/-- `[x]` if the condition holds. -/
def opt {α : Type} (b : Bool) (x : α) : List α := if b then [x] else []

/-- A prefix list with exceptions; capirca/lib/juniper.py:446-463. -/
def prefixCond (hd : String) (inc exc : List String) : List Cond :=
  opt (!inc.isEmpty || !exc.isEmpty)
    (.block hd ((inc.map fun s => [Tok.w s]) ++ exc.map fun s => [Tok.w s, Tok.w "except"]))

/-- Replace the first occurrence of a word; capirca/lib/juniper.py:186-191, 506-518. -/
def replaceFirst (a b : String) : List String → List String
  | [] => []
  | x :: xs => if x = a then b :: xs else x :: replaceFirst a b xs

/-- Remove the first occurrence of a word (`list.remove`); capirca/lib/juniper.py:213-221, 1024. -/
def removeFirst (a : String) : List String → List String
  | [] => []
  | x :: xs => if x = a then xs else x :: removeFirst a xs

/-- The words of a list. -/
def wordToks (l : List String) : List Tok := l.map Tok.w

/-- Conditions from forwarding-class to destination-port; capirca/lib/juniper.py:434-480. -/
def conds1 (ty : TType) (t : Term) : List Cond :=
  opt (!t.forwardingClass.isEmpty) (.leaf (group "forwarding-class" (wordToks t.forwardingClass))) ++
  (opt (!t.forwardingClassExcept.isEmpty)
    (.leaf (group "forwarding-class-except" (wordToks t.forwardingClassExcept))) ++
  (prefixCond "source-prefix-list" t.sourcePrefix t.sourcePrefixExcept ++
  (prefixCond "destination-prefix-list" t.destinationPrefix t.destinationPrefixExcept ++
  (opt (t.ttl.getD 0 != 0 && ty == .inet) (.leaf [.w "ttl", .num (t.ttl.getD 0)]) ++
  (opt (!t.port.isEmpty) (.leaf (group "port" (t.port.map portTok))) ++
  (opt (!t.sourcePort.isEmpty) (.leaf (group "source-port" (t.sourcePort.map portTok))) ++
  opt (!t.destinationPort.isEmpty) (.leaf (group "destination-port" (t.destinationPort.map portTok)))))))))

/-- Packet length and fragment offset; capirca/lib/juniper.py:486-492. -/
def conds2 (t : Term) : List Cond :=
  opt (!t.packetLength.isEmpty) (.leaf [.w "packet-length", spanTok t.packetLength]) ++
  opt (!t.fragmentOffset.isEmpty) (.leaf [.w "fragment-offset", spanTok t.fragmentOffset])

/-- The icmp types printed; capirca/lib/juniper.py:494-500. -/
def icmpCond (ty : TType) (t : Term) : Except Err (List Cond) := do
  if t.icmpType.isEmpty then .ok []
  else
    let l ← normalizeIcmpTypes t.icmpType t.protocol (.name ty.name)
    .ok [.leaf (group "icmp-type" (l.map fun n => .num (n.getD 0)))]

/-- Conditions from icmp-code to traffic-type; capirca/lib/juniper.py:501-528. The protocol lists are those after
the renaming of `icmpv6`. -/
def conds3 (ty : TType) (t : Term) : List Cond :=
  opt (!t.icmpCode.isEmpty) (.leaf (group "icmp-code" (t.icmpCode.map .num))) ++
  (opt (!t.etherType.isEmpty) (.leaf (group "ether-type" (wordToks t.etherType))) ++
  (opt (!t.protocol.isEmpty) (.leaf (group (kw ty "protocol") (wordToks t.protocol))) ++
  (opt (!t.protocolExcept.isEmpty) (.leaf (group (kw ty "protocol-except") (wordToks t.protocolExcept))) ++
  opt (!t.trafficType.isEmpty) (.leaf (group "traffic-type" (wordToks t.trafficType))))))

/-- The order of strings. -/
def strLe (a b : String) : Bool := !decide (b < a)

/-- Is the text a precedence value; capirca/lib/juniper.py:535. -/
def precedenceOk (s : String) : Except Err Unit :=
  match PyStr.pyInt s.toList with
  | none => .error .valueError
  | some i => if 0 ≤ i ∧ i < 8 then .ok () else .error (.raised "PrecedenceError")

/-- Precedence; capirca/lib/juniper.py:530-540. -/
def precCond (t : Term) : Except Err (List Cond) := do
  if t.precedence.isEmpty then .ok []
  else
    let _ ← listM precedenceOk t.precedence
    .ok [.leaf (group "precedence" (wordToks (isort strLe t.precedence.eraseDups)))]

/-- A bracketed list of words; capirca/lib/juniper.py:545-556. -/
def bracketed (hd : String) (l : List String) : List Tok := .w hd :: .w "[" :: (wordToks l ++ [.w "]"])

/-- DSCP, hop limit and flexible match; capirca/lib/juniper.py:542-569. A flexible match option is one word here
(two in the code). -/
def conds4 (ty : TType) (t : Term) : List Cond :=
  opt (!t.dscpMatch.isEmpty) (.leaf (bracketed (if ty = .inet6 then "traffic-class" else "dscp") t.dscpMatch)) ++
  (opt (!t.dscpExcept.isEmpty)
    (.leaf (bracketed (if ty = .inet6 then "traffic-class-except" else "dscp-except") t.dscpExcept)) ++
  (opt (!t.hopLimit.isEmpty && ty == .inet6) (.leaf [.w "hop-limit", spanTok t.hopLimit]) ++
  opt (!t.flexibleMatchRange.isEmpty) (.block "flexible-match-range" (t.flexibleMatchRange.map fun s => [.w s]))))

/-- The three address conditions; `none` if the term is left out; capirca/lib/juniper.py:343-432. -/
def addrConds (ty : TType) (dsmo : Bool) (t : Term) : Except Err (Option (List Cond)) := do
  match ← addrCond ty.af dsmo (kw ty "addr") t.address [] with
  | none => .ok none
  | some a =>
    match ← addrCond ty.af dsmo (kw ty "saddr") t.sourceAddress t.sourceAddressExclude with
    | none => .ok none
    | some s =>
      match ← addrCond ty.af dsmo (kw ty "daddr") t.destinationAddress t.destinationAddressExclude with
      | none => .ok none
      | some d => .ok (some (a ++ (s ++ d)))

/-- The renaming of `icmpv6` in the protocol lists; capirca/lib/juniper.py:507-518. -/
def renameIcmp (t : Term) : Term :=
  { t with protocol := replaceFirst "icmpv6" "icmp6" t.protocol,
           protocolExcept := replaceFirst "icmpv6" "icmp6" t.protocolExcept }

/-- The conditions after the addresses; capirca/lib/juniper.py:434-569. -/
def restConds (ty : TType) (t : Term) (fromStr : List (List Tok)) : Except Err (List Cond) := do
  let ic ← icmpCond ty t
  let pc ← precCond t
  .ok (conds1 ty t ++ (fromStr.map .leaf ++ (conds2 t ++ (ic ++ (conds3 ty (renameIcmp t) ++ (pc ++ conds4 ty t))))))

/-- `ACTIONS`; capirca/lib/juniper.py:135-142. -/
def actionTable : List (String × String) :=
  [("accept", "accept"), ("deny", "discard"), ("reject", "reject"), ("next", "next term"),
   ("reject-with-tcp-rst", "reject tcp-reset"), ("encapsulate", "encapsulate"), ("decapsulate", "decapsulate"),
   ("port-mirror", "port-mirror")]

/-- `CheckTerminatingAction`; capirca/lib/juniper.py:712-724. -/
def checkTerminating (j : JTerm) : Except Err Unit :=
  if (j.term.action ++ (opt (j.encapsulate != "") j.encapsulate ++ (opt (j.decapsulate != "") j.decapsulate ++
      opt (j.routing != "") j.routing))).eraseDups.length > 1 then
    .error (.raised "JuniperMultipleTerminatingActionError")
  else .ok ()

/-- The characters of a text, as `set.update` adds them; capirca/lib/juniper.py:600-603. -/
def chars (s : String) : List String := s.toList.map fun c => String.ofList [c]

/-- `unique_actions`; capirca/lib/juniper.py:586-607. Networks of `next_ip` are named by address and length. -/
def uniqueActions (j : JTerm) (extra : List String) : List String :=
  let base := (extra ++ ((if j.routing = "" then j.term.action else []) ++
    (opt (j.encapsulate != "") "encapsulate" ++ opt (j.decapsulate != "") "decapsulate"))).eraseDups
  if base.length ≤ 1 then
    (base ++ (j.term.logging ++ (chars j.routing ++ (chars j.counter ++ (chars j.policer ++ (chars j.qos ++
      (chars j.lossPriority ++ (chars j.dscpSet ++
      (j.nextIp.map (fun n => "network " ++ toString n.addr ++ "/" ++ toString n.plen) ++
      (chars j.trafficClassCount ++ (if j.term.portMirror then chars "true" else [])))))))))) ).eraseDups
  else base

/-- `NextIpCheck`; capirca/lib/juniper.py:702-710. Without `next_ip`, `len(None)` raises `TypeError`. -/
def nextIpCheck (l : List Net) : Except Err Unit :=
  match l with
  | [] => .error .typeError
  | n :: ns =>
    if !ns.isEmpty then .error (.raised "JuniperNextIpError")
    else if n.broadcast - n.addr + 1 > 1 then .error (.raised "JuniperNextIpError") else .ok ()

/-- The statement for `next_ip`; capirca/lib/juniper.py:633-637, 675-679. -/
def nextIpStmt (l : List Net) : List (List Tok) :=
  l.take 1 |>.map fun n => [.w (if n.ver = .v4 then "next-ip" else "next-ip6"), .pfx n.ver n.addr n.plen]

/-- A statement with an argument, if it is set. -/
def argStmt (hd s : String) : List (List Tok) := opt (s != "") [.w hd, .w s]

/-- `ACTIONS.get(action) + ';'`: an unknown action raises `TypeError`; capirca/lib/juniper.py:687-689. -/
def actionStmt (a : String) : Except Err (List Tok) :=
  match actionTable.lookup a with
  | none => .error .typeError
  | some s => .ok [.w s]

/-- One action; capirca/lib/juniper.py:609-649. -/
def oneAction (ty : TType) (j : JTerm) (a : String) : Except Err (Bool × List (List Tok)) :=
  match actionTable.lookup a with
  | none =>
    match nextIpCheck j.nextIp with
    | .error e => .error e
    | .ok _ => .ok (true, nextIpStmt j.nextIp)
  | some s =>
    if (ty = .inet ∧ (s = "discard" ∨ s = "reject" ∨ s = "reject tcp-reset")) ∨
        (ty = .inet6 ∧ (s = "reject" ∨ s = "reject tcp-reset")) then .ok (true, [[.w s]])
    else if s = "encapsulate" then .ok (true, [[.w s, .w j.encapsulate]])
    else if s = "decapsulate" then .ok (true, [[.w s, .w j.decapsulate]])
    else .ok (false, [[.w s]])

/-- Several actions; capirca/lib/juniper.py:650-698. -/
def manyActions (ty : TType) (j : JTerm) (extra : List String) : Except Err (List (List Tok)) := do
  if !j.nextIp.isEmpty then nextIpCheck j.nextIp
  let acts ← if j.routing = "" then listM actionStmt j.term.action else .ok []
  .ok (j.term.logging.map (fun l => [.w (if l = "local" then "log" else "syslog")]) ++
    (argStmt "routing-instance" j.routing ++ (argStmt "count" j.counter ++
    (argStmt "traffic-class-count" j.trafficClassCount ++ (argStmt "policer" j.policer ++
    (argStmt "forwarding-class" j.qos ++ (opt j.term.portMirror [.w "port-mirror"] ++
    (argStmt "loss-priority" j.lossPriority ++ (nextIpStmt j.nextIp ++ (argStmt "encapsulate" j.encapsulate ++
    (argStmt "decapsulate" j.decapsulate ++ (extra.map (fun e => [.w e]) ++ (acts ++
    argStmt (if ty = .inet6 then "traffic-class" else "dscp") j.dscpSet)))))))))))))

/-- The actions of a term; capirca/lib/juniper.py:571-698. -/
def thenClause (ty : TType) (j : JTerm) (extra : List String) :
    Except Err (Option (Bool × List (List Tok))) := do
  checkTerminating j
  match uniqueActions j extra with
  | [] => .ok none
  | [a] => (oneAction ty j a).map some
  | _ => (manyActions ty j extra).map fun l => some (true, l)

/-- Removal of icmp protocols of the other family; capirca/lib/juniper.py:212-221. -/
def pruneIcmp (ty : TType) (l : List String) : List String :=
  match ty with
  | .inet6 => removeFirst "icmp" l
  | .inet => removeFirst "icmp6" (removeFirst "icmpv6" l)
  | .bridge => l

/-- `icmp_mismatch_pruned`; capirca/lib/juniper.py:211-221. -/
def pruned (ty : TType) (l : List String) : Bool :=
  match ty with
  | .inet6 => l.contains "icmp"
  | .inet => l.contains "icmpv6" || l.contains "icmp6"
  | .bridge => false

/-- The term from its name on; the object after printing comes with it; capirca/lib/juniper.py:283-700. -/
def printTerm (ty : TType) (dsmo : Bool) (j : JTerm) (opts : List (List Tok) × List String) :
    Except Err (Option Out × JTerm) := do
  if j.term.filterTerm then .ok (some (.term j.inactive j.term.name .filter), j)
  else if hasMatchCriteria j then
    match ← addrConds ty dsmo j.term with
    | none => .ok (none, j)
    | some ac =>
      let rc ← restConds ty j.term opts.1
      let th ← thenClause ty j opts.2
      .ok (some (.term j.inactive j.term.name (.normal (some (ac ++ rc)) th)), { j with term := renameIcmp j.term })
  else
    let th ← thenClause ty j opts.2
    .ok (some (.term j.inactive j.term.name (.normal none th)), j)

/-- `Term.__str__`: the printed term (`none`: empty text) and the term object afterwards;
capirca/lib/juniper.py:199-700. A verbatim term without text for the platform prints an empty text. -/
def renderTerm (platform : String) (ty : TType) (dsmo : Bool) (j : JTerm) : Except Err (Option Out × JTerm) := do
  if !Cisco.onPlatform platform j.term then .ok (none, j)
  else
    let p := pruneIcmp ty j.term.protocol
    let j' := { j with term := { j.term with protocol := p } }
    if p.isEmpty && pruned ty j.term.protocol then .ok (none, j')
    else if !j.term.verbatim.isEmpty then
      .ok (some (.verbatim ((j.term.verbatim.filter fun v => v.1 == platform).map Prod.snd)), j')
    else
      let o ← options ty p ([], []) j.term.option
      printTerm ty dsmo j' o

/-- `Term.__str__` with the `extra_actions` of the object, which printing extends: what is printed, the term object
and the extra actions afterwards; capirca/lib/juniper.py:196-700. Owner comments, which are added to the comments at
every printing (236-237), are not modelled. -/
def renderFrom (platform : String) (ty : TType) (dsmo : Bool) (extra : List String) (j : JTerm) :
    Except Err (Option Out × JTerm × List String) := do
  if !Cisco.onPlatform platform j.term then .ok (none, j, extra)
  else
    let p := pruneIcmp ty j.term.protocol
    let j' := { j with term := { j.term with protocol := p } }
    if p.isEmpty && pruned ty j.term.protocol then .ok (none, j', extra)
    else if !j.term.verbatim.isEmpty then
      .ok (some (.verbatim ((j.term.verbatim.filter fun v => v.1 == platform).map Prod.snd)), j', extra)
    else
      let o ← options ty p ([], extra) j.term.option
      let r ← printTerm ty dsmo j' o
      .ok (r.1, r.2, o.2)

/-- Printing an object twice; capirca/lib/juniper.py:199-700. -/
def printTwice (platform : String) (ty : TType) (dsmo : Bool) (j : JTerm) : Except Err (Option Out × Option Out) := do
  let r ← renderFrom platform ty dsmo [] j
  let s ← renderFrom platform ty dsmo r.2.2 r.2.1
  .ok (r.1, s.1)

/-! ### filters -/

/-- `Term.__init__`: protocol check, `ipip` becomes its number, `hopopt` is renamed;
capirca/lib/juniper.py:175-194, aclgenerator.py:121-133. The number is kept as text. -/
def initTerm (j : JTerm) : Except Err JTerm := do
  let ps ← termProtocols (j.term.protocol.map .str)
  .ok { j with term := { j.term with
    protocol := replaceFirst "hopopt" "hop-by-hop" (ps.map Proto.text),
    protocolExcept := replaceFirst "hopopt" "hop-by-hop" j.term.protocolExcept } }

/-- Class attributes for `FixHighPorts`; capirca/lib/juniper.py:908-909. -/
def highPorts : HighPorts := { supportedAf := ["inet", "inet6", "bridge", "mixed"] }

/-- The `inactive` option; capirca/lib/juniper.py:1021-1024. -/
def deactivate (j : JTerm) : JTerm :=
  if j.term.option.contains "inactive" then
    { j with inactive := true, term := { j.term with option := removeFirst "inactive" j.term.option } }
  else j

/-- `FixHighPorts` made a copy; capirca/lib/aclgenerator.py:443-450. -/
def copied (t : Term) : Bool := t.option.any fun o => startsWith "established" o

/-- The term loop of `_TranslatePolicy` for one term: the policy's term object afterwards, and what is printed later
(`none`: nothing, `some none`: the policy's own object, `some (some c)`: a copy `c`);
capirca/lib/juniper.py:1014-1050. -/
def translate (ty : TType) (j : JTerm) : Except Err (JTerm × Option (Option JTerm)) := do
  if j.term.restrictAddressFamily.isSome && j.term.restrictAddressFamily != some ty.name then .ok (j, none)
  else
    let j := deactivate j
    let name ← fixTermLength abbreviations 62 j.term.name false false
    let j := { j with term := { j.term with name := name } }
    let u ← fixHighPorts highPorts j.term ty.name false
    if j.expired then .ok (j, none)
    else if j.term.option.contains "is-fragment" && ty == .inet6 then .error (.raised "JuniperFragmentInV6Error")
    else if copied j.term then do
      let c ← initTerm { j with term := u }
      .ok (j, some (some c))
    else do
      let c ← initTerm j
      .ok (c, some none)

/-- The names checked for duplicates; capirca/lib/juniper.py:1016-1032. -/
def namesOf (ty : TType) (ts : List JTerm) : List Str :=
  (ts.filter fun j => !(j.term.restrictAddressFamily.isSome && j.term.restrictAddressFamily != some ty.name)).map
    fun j => j.term.name

/-- One term of a filter with one family: what is printed; capirca/lib/juniper.py:1014-1050, 1091-1094. -/
def singleTerm (platform : String) (ty : TType) (dsmo : Bool) (j : JTerm) : Except Err (Option Out) := do
  match ← translate ty j with
  | (_, none) => .ok none
  | (j1, some none) => (renderTerm platform ty dsmo j1).map Prod.fst
  | (_, some (some c)) => (renderTerm platform ty dsmo c).map Prod.fst

/-- A filter with one family: the printed terms; capirca/lib/juniper.py:970-1066, 1091-1094. The terms do not
share objects, so each is followed through translation and printing; this and the early test for duplicate names
only decide which error comes first. -/
def renderSingle (platform : String) (ty : TType) (dsmo : Bool) (ts : List JTerm) : Except Err (List Out) := do
  if Cisco.hasDup (namesOf ty ts) then .error (.raised "JuniperDuplicateTermError")
  else
    let os ← listM (singleTerm platform ty dsmo) ts
    .ok (os.filterMap id)

/-- Print what `translate` returned; an own object is changed by it; capirca/lib/juniper.py:1091-1094. -/
def printRef (platform : String) (ty : TType) (dsmo : Bool) (own : JTerm) :
    Option (Option JTerm) → Except Err (Option Out × JTerm)
  | none => .ok (none, own)
  | some none => renderTerm platform ty dsmo own
  | some (some c) => (renderTerm platform ty dsmo c).map fun r => (r.1, own)

/-- One term of a mixed filter: both translations come first, then both printings, on the same object unless
`FixHighPorts` copied it; capirca/lib/juniper.py:1000-1066, 1091-1094. -/
def mixedTerm (platform : String) (dsmo : Bool) (j : JTerm) : Except Err (Option Out × Option Out) := do
  let (j1, r4) ← translate .inet j
  let (j2, r6) ← translate .inet6 j1
  let (o4, j3) ← printRef platform .inet dsmo j2 r4
  let (o6, _) ← printRef platform .inet6 dsmo j3 r6
  .ok (o4, o6)

/-- A mixed filter: the terms of the `inet` and of the `inet6` filter; capirca/lib/juniper.py:1000-1066. -/
def renderMixed (platform : String) (dsmo : Bool) (ts : List JTerm) : Except Err (List Out × List Out) := do
  if Cisco.hasDup (namesOf .inet ts) || Cisco.hasDup (namesOf .inet6 ts) then
    .error (.raised "JuniperDuplicateTermError")
  else
    let os ← listM (mixedTerm platform dsmo) ts
    .ok (os.filterMap Prod.fst, os.filterMap Prod.snd)

/-- `_BuildTokens`; capirca/lib/juniper.py:913-968. -/
def tables (platform : String) : Tables where
  platform := platform
  tokens := (baseTables platform).tokens ++
    ["address", "restrict_address_family", "counter", "decapsulate", "destination_prefix",
     "destination_prefix_except", "dscp_except", "dscp_match", "dscp_set", "encapsulate", "ether_type",
     "filter_term", "flexible_match_range", "forwarding_class", "forwarding_class_except", "fragment_offset",
     "hop_limit", "icmp_code", "logging", "loss_priority", "next_ip", "owner", "packet_length", "policer", "port",
     "port_mirror", "precedence", "protocol_except", "qos", "routing_instance", "source_prefix",
     "source_prefix_except", "target_resources", "traffic_type", "traffic_class_count", "ttl"]
  subTokens := [("option", ["established", "first-fragment", "is-fragment", ".*", "sample", "tcp-established",
      "tcp-initial", "inactive"]),
    ("action", ["accept", "deny", "next", "reject", "reject-with-tcp-rst"]),
    ("icmp_type", (icmp4 ++ icmp6).map Prod.fst)]
  warnOnly := warnIfUnsupported

end Juniper
end Verif
