import Verif.Model.Cisco

/-!
Model of capirca/lib/windows.py, capirca/lib/windows_advfirewall.py and capirca/lib/windows_ipsec.py.

The commands are values instead of text; comments and revision tags are left out.
-/

namespace Verif
namespace Windows
open Policy Aclgenerator
open Cisco (RTerm onPlatform)

/-- A filter: whether its header has a target for the platform, the options of the target, and the terms;
capirca/lib/windows.py:255-261. One target per header. -/
structure Filter where
  here : Bool := true
  options : List String := []
  terms : List RTerm := []

/-- A term after `Term.__init__`: the term and its protocols; capirca/lib/windows.py:38-62,
capirca/lib/aclgenerator.py:121-133. -/
structure WTerm where
  term : Term
  protos : List Proto

/-- An element of `windows_policies`; capirca/lib/windows.py:316-317. -/
structure Prepared where
  name : Option String
  family : String
  default : Option String
  terms : List WTerm

/-- `filter_type`; capirca/lib/windows.py:270-280. -/
def familyOf (afs opts : List String) : Except Err String :=
  match afs.filter fun a => opts.contains a with
  | [] => .ok "inet"
  | [a] => .ok a
  | _ => .error (.raised "UnsupportedFilterError")

/-- The default action after the options; capirca/lib/windows.py:282-288. -/
def defaultOf (before : Option String) (opts : List String) : Option String :=
  if 1 < opts.length then
    opts.foldl (fun d o => if ["permit", "block"].contains o then some o else d) before
  else before

/-- `Term.__init__`, which takes the first character of the name; capirca/lib/windows.py:38-62. -/
def initTerm (name : Option String) (t : Term) : Except Err WTerm := do
  let ps ← termProtocols (t.protocol.map .str)
  match name with
  | none => .error .typeError
  | some _ => .ok ⟨t, ps⟩

/-- The loop over the terms; capirca/lib/windows.py:295-314. -/
def prepareTerms (name : Option String) : List Str → List RTerm → Except Err (List WTerm)
  | _, [] => .ok []
  | seen, r :: rs =>
    if seen.contains r.term.name then .error (.raised "DuplicateTermError")
    else if r.expired then prepareTerms name (r.term.name :: seen) rs
    else if r.term.option.contains "established" || r.term.option.contains "tcp-established" then
      prepareTerms name (r.term.name :: seen) rs
    else do
      let t ← initTerm name r.term
      let ts ← prepareTerms name (r.term.name :: seen) rs
      .ok (t :: ts)

/-- One filter of `_TranslatePolicy`; capirca/lib/windows.py:260-317. `afs` is `_GOOD_AFS`. -/
def prepareFilter (afs : List String) (before : Option String) (f : Filter) : Except Err Prepared :=
  if f.options.tail.any fun o => !(["permit", "block"] ++ afs).contains o then
    .error (.raised "UnsupportedTargetOptionError")
  else do
    let family ← familyOf afs f.options.tail
    let ts ← prepareTerms f.options.head? [] f.terms
    .ok ⟨f.options.head?, family, defaultOf before f.options, ts⟩

/-- `_TranslatePolicy`; capirca/lib/windows.py:245-317. -/
def prepare (afs : List String) : Option String → List Filter → Except Err (List Prepared)
  | _, [] => .ok []
  | before, f :: fs =>
    if !f.here then prepare afs before fs
    else do
      let p ← prepareFilter afs before f
      let ps ← prepare afs p.default fs
      .ok (p :: ps)

/-- What `Term.__str__` finds before it comes to the rules: the term says nothing here, or the rules are made for its only
action; capirca/lib/windows.py:64-99, 116-120. -/
def actionOf (platform family : String) (w : WTerm) : Except Err (Option String) :=
  if !onPlatform platform w.term then .ok none
  else if (family = "inet6" && w.protos.contains (.str "icmp")) || (family = "inet" && w.protos.contains (.str "icmpv6")) then
    .ok none
  else
    match w.term.action with
    | [] => .error .indexError
    | a :: as =>
      if a = "next" then .ok none
      else if !as.isEmpty then .error (.raised "UnsupportedFilterError")
      else if !w.term.sourceAddressExclude.isEmpty || !w.term.destinationAddressExclude.isEmpty then
        .error (.raised "UnsupportedFilterError")
      else .ok (some a)

/-- `protocols`; capirca/lib/windows.py:101-105. -/
def protocols (w : WTerm) : List Proto := if w.protos.isEmpty then [.str "any"] else w.protos

/-- `src_addr`, `dst_addr`; capirca/lib/windows.py:107-114. `none` is the network of all addresses of the family. -/
def addresses (l : List Net) : List (Option Net) := if l.isEmpty then [none] else l.map some

/-- `self.term_name`; capirca/lib/windows.py:62. -/
def termName (filter : String) (t : Term) : Str := filter.toList.take 1 ++ '_' :: t.name

/-! ### windows_advfirewall -/

/-- The value of `protocol=`; capirca/lib/windows_advfirewall.py:57-73, 119-126. -/
inductive ProtoTok where
  | word (s : String)
  | num (n : Int)
  | typed (family : String) (type : Nat)
deriving DecidableEq, Repr

/-- `netsh advfirewall firewall add rule`; capirca/lib/windows_advfirewall.py:90-134. An address that is not there is `any`;
a list of ports that is empty is not printed. -/
structure Rule where
  name : Str
  dir : String
  localIp : Option (Ver × Nat × Nat)
  remoteIp : Option (Ver × Nat × Nat)
  localPorts : List PortRange
  remotePorts : List PortRange
  proto : ProtoTok
  action : String
deriving DecidableEq, Repr

/-- An address of a rule; capirca/lib/windows_advfirewall.py:104-112. -/
def ipOf : Option Net → Option (Ver × Nat × Nat)
  | none => none
  | some n => if n.plen = 0 then none else some (n.ver, n.addr, n.plen)

/-- A protocol of a rule; capirca/lib/windows_advfirewall.py:68-71, 119-126. -/
def protoTok : Proto → ProtoTok
  | .num n => .num n
  | .str s =>
    if s = "icmp" then .word "icmpv4"
    else if s = "vrrp" then .num 112
    else if s = "ah" then .num 51
    else if s = "hopopt" then .num 0
    else .word s

/-- `_HandleIcmpTypes`; capirca/lib/windows_advfirewall.py:51-73. -/
def protoToks (family : String) (w : WTerm) : Except Err (List ProtoTok) :=
  if w.term.icmpType.isEmpty then .ok ((protocols w).map protoTok)
  else do
    let types ← normalizeIcmpTypes w.term.icmpType ((protocols w).map Proto.text) (.name family)
    .ok (types.filterMap fun o => o.map (.typed (if family = "inet6" then "icmpv6" else "icmpv4")))

/-- `str.lower` on the letters of `in`; capirca/lib/windows_advfirewall.py:98. -/
def isIn (filter : String) : Bool := filter = "in" || filter = "IN" || filter = "In" || filter = "iN"

/-- `_ComposeRule`; capirca/lib/windows_advfirewall.py:90-134. -/
def compose (filter : String) (t : Term) (action : String) (src dst : Option Net) (proto : ProtoTok) : Rule :=
  if isIn filter then
    ⟨termName filter t, filter, ipOf dst, ipOf src, t.destinationPort, t.sourcePort, proto, action⟩
  else ⟨termName filter t, filter, ipOf src, ipOf dst, t.sourcePort, t.destinationPort, proto, action⟩

/-- `_ACTION_TABLE`; capirca/lib/windows_advfirewall.py:45-49. -/
def advActions : List (String × String) := [("accept", "allow"), ("deny", "block"), ("reject", "block")]

/-- The rules of a term; capirca/lib/windows.py:64-149, capirca/lib/windows_advfirewall.py:75-88. The test of the ports is never
true here, there is one text for all of them. -/
def advTerm (filter family : String) (w : WTerm) : Except Err (List Rule) := do
  match ← actionOf "windows_advfirewall" family w with
  | none => .ok []
  | some a =>
    let protos ← protoToks family w
    match advActions.lookup a with
    | none => .error .keyError
    | some act =>
      .ok ((addresses w.term.sourceAddress).flatMap fun s => (addresses w.term.destinationAddress).flatMap fun d =>
        protos.map (compose filter w.term act s d))

/-- One filter of `__str__`; capirca/lib/windows.py:326-352. The name is there if there are terms. -/
def advFilter (p : Prepared) : Except Err (List Rule) :=
  match p.default with
  | some _ => .error (.raised "UnsupportedTargetOptionError")
  | none => do
    let ls ← listM (advTerm (p.name.getD "") p.family) p.terms
    .ok (ls.flatMap id)

/-- The generator; capirca/lib/windows.py:245-355. -/
def advTranslate (fs : List Filter) : Except Err (List Rule) := do
  let ps ← prepare ["inet", "inet6"] none fs
  let ls ← listM advFilter ps
  .ok (ls.flatMap id)

/-- `_BuildTokens`; capirca/lib/windows.py:230-243. -/
def advTables : Tables where
  platform := "windows_advfirewall"
  tokens := (baseTables "windows_advfirewall").tokens.filter (· != "verbatim")
  subTokens := [("action", ["accept", "deny"]), ("icmp_type", (icmp4 ++ icmp6).map Prod.fst)]
  warnOnly := warnIfUnsupported

/-! ### windows_ipsec -/

/-- The conditions of `netsh ipsec static add filter`; capirca/lib/windows_ipsec.py:138-168. -/
structure Cond where
  src : Option (Nat × Nat)
  dst : Option (Nat × Nat)
  sport : Option Nat
  dport : Option Nat
  proto : ProtoTok
deriving DecidableEq, Repr

/-- A command; capirca/lib/windows_ipsec.py:57-68, 184. -/
inductive Cmd where
  | policy (name : Str)
  | filterList (name : Str)
  | filterAction (name : Str) (action : String)
  | filter (list : Str) (c : Cond)
  | rule (name policy list action : Str)
deriving DecidableEq, Repr

/-- `_CollapsePortTuples`: the ports of the last range, `none` for the empty text; capirca/lib/windows_ipsec.py:120-126. -/
def collapsePorts (l : List PortRange) : List (Option Nat) :=
  l.foldl (fun _ r => (List.range' r.1 (r.2 + 1 - r.1)).map some) [none]

/-- A port as it is printed; capirca/lib/windows_ipsec.py:157-160. Nothing is printed for port zero. -/
def portAtom : Option Nat → Option Nat
  | some 0 => none
  | o => o

/-- An address as it is printed; capirca/lib/windows_ipsec.py:143-155. -/
def maskAtom : Option Net → Option (Nat × Nat)
  | none => none
  | some n => if n.plen = 0 then none else some (n.addr, n.plen)

/-- Whether an address is of IPv4; capirca/lib/windows_ipsec.py:98-107. -/
def isV4 : Option Net → Bool
  | none => true
  | some n => n.ver = .v4

/-- A protocol as it is printed; capirca/lib/windows_ipsec.py:162-163. -/
def rawTok : Proto → ProtoTok
  | .num n => .num n
  | .str s => .word s

/-- The conditions of a term; capirca/lib/windows_ipsec.py:94-118. -/
def conds (w : WTerm) : List Cond :=
  ((addresses w.term.sourceAddress).filter isV4).flatMap fun s =>
    ((addresses w.term.destinationAddress).filter isV4).flatMap fun d => (protocols w).flatMap fun p =>
      (collapsePorts w.term.sourcePort).flatMap fun sp => (collapsePorts w.term.destinationPort).map fun dp =>
        ⟨maskAtom s, maskAtom d, portAtom sp, portAtom dp, rawTok p⟩

/-- `_ACTION_TABLE`; capirca/lib/windows_ipsec.py:71-75. -/
def secActions : List (String × String) := [("accept", "permit"), ("deny", "block"), ("reject", "block")]

/-- The test of the ports; capirca/lib/windows.py:126-137. -/
def portsRefused (w : WTerm) : Bool :=
  !((protocols w).all fun p => p = .str "tcp" || p = .str "udp") &&
  (decide (1 < (collapsePorts w.term.sourcePort).length) || decide (1 < (collapsePorts w.term.destinationPort).length))

/-- `_LIST_SUFFIX`; capirca/lib/windows_ipsec.py:67, 131, 167. -/
def listName (filter : String) (t : Term) : Str := termName filter t ++ "-list".toList

/-- `_ACTION_SUFFIX`; capirca/lib/windows_ipsec.py:68, 136. -/
def actionName (filter : String) (t : Term) : Str := termName filter t ++ "-action".toList

/-- The commands of a term; capirca/lib/windows.py:64-149, 348-352, capirca/lib/windows_ipsec.py:77-92, 170-175, 206-208. The
list and the action are created before and after the filters. -/
def secTerm (filter family : String) (w : WTerm) : Except Err (List Cmd) := do
  match ← actionOf "windows_ipsec" family w with
  | none => .ok []
  | some a =>
    if portsRefused w then .error (.raised "UnsupportedFilterError")
    else if !w.term.icmpType.isEmpty then .error (.raised "UnsupportedFilterError")
    else
      match secActions.lookup a with
      | none => .error .keyError
      | some act =>
        let pre := [Cmd.filterList (listName filter w.term), .filterAction (actionName filter w.term) act]
        .ok (pre ++ (conds w).map (.filter (listName filter w.term)) ++ pre ++
          [.rule (termName filter w.term ++ "-rule".toList) filter.toList (listName filter w.term) (actionName filter w.term)])

/-- One filter of `__str__`; capirca/lib/windows.py:326-352, capirca/lib/windows_ipsec.py:201-204. -/
def secFilter (p : Prepared) : Except Err (List Cmd) :=
  match p.name with
  | none => .error .typeError
  | some name =>
    match p.default with
    | some _ => .error (.raised "UnsupportedTargetOptionError")
    | none => do
      let ls ← listM (secTerm name p.family) p.terms
      .ok (.policy (name.toList ++ "-policy".toList) :: ls.flatMap id)

/-- The generator; capirca/lib/windows.py:245-355. -/
def secTranslate (fs : List Filter) : Except Err (List Cmd) := do
  let ps ← prepare ["inet"] none fs
  let ls ← listM secFilter ps
  .ok (ls.flatMap id)

/-- `_BuildTokens`; capirca/lib/windows_ipsec.py:189-199. -/
def secTables : Tables where
  platform := "windows_ipsec"
  tokens := (baseTables "windows_ipsec").tokens.filter fun s => s != "verbatim" && s != "icmp_type"
  subTokens := [("action", ["accept", "deny"])]
  warnOnly := warnIfUnsupported

end Windows
end Verif
