import Verif.Model.PyStr
import Verif.Model.Err

/-!
Model of capirca/aclgen.py (rendering, file comparison, writing, sequential and parallel runs) and
capirca/utils/config.py.

Parsing a policy and rendering it for a platform are parameters (`World`): they are functions of the policy
file and the definitions, which a run does not change. Finding the policy files (`DescendDirectory`) is a
parameter too. Paths are lists of parts as in `pathlib` (an absolute path has the first part `/`); two
different lists are different files (no links). File contents are decoded texts; undecodable contents are
not modelled.
-/

namespace Verif
namespace Aclgen
open PyStr

/-- The parts of a path. -/
abbrev Path := List Str

/-- Contents of the readable files; `none` is the `IOError` of `open`; capirca/aclgen.py:514-518. -/
abbrev Disk := Path → Option Str

/-! ### names of output files -/

/-- The characters after the last dot, the whole text if there is none. -/
def afterDot (name : Str) : Str := (name.reverse.takeWhile fun c => c != '.').reverse

/-- `PurePath.suffix`, used by `with_suffix`; capirca/aclgen.py:489. -/
def suffixOf (name : Str) : Str :=
  if name.contains '.' && !(afterDot name).isEmpty && decide ((afterDot name).length + 1 < name.length) then
    '.' :: afterDot name
  else []

/-- `input_file.with_suffix(acl_suffix).name`, for the name of the file; capirca/aclgen.py:489. -/
def withSuffix (name suffix : Str) : Except Err Str :=
  if suffix.contains '/' then .error .valueError
  else if (suffix ≠ [] ∧ suffix.head? ≠ some '.') ∨ suffix = ['.'] then .error .valueError
  else if name.isEmpty then .error .valueError
  else .ok (name.take (name.length - (suffixOf name).length) ++ suffix)

/-- `input_file.relative_to(base_directory)`; capirca/aclgen.py:163. -/
def relativeTo (base file : Path) : Except Err Path :=
  if base = [] ∧ file.head? = some ['/'] then .error .valueError
  else if base.isPrefixOf file then .ok (file.drop base.length)
  else .error .valueError

/-- `output_directory / input_file.relative_to(base_directory).parent.parent`; capirca/aclgen.py:163-164. -/
def outputDir (base out file : Path) : Except Err Path :=
  match relativeTo base file with
  | .ok rel => .ok (out ++ rel.dropLast.dropLast)
  | .error e => .error e

/-! ### comparing with the file on disk -/

/-- Reading in text mode: universal newlines; capirca/aclgen.py:513-516. -/
def universal : Str → Str
  | [] => []
  | '\r' :: '\n' :: cs => '\n' :: universal cs
  | '\r' :: cs => '\n' :: universal cs
  | c :: cs => c :: universal cs

/-- `p4_id`, `p4_date`, `p4_revision`; capirca/aclgen.py:520-522. -/
def p4Tags : List Str := ["$Id:".toList, "$Date:".toList, "$Revision:".toList]

/-- `P4Tags(text)`: the line has no tag; capirca/aclgen.py:524-525. -/
def untagged (line : Str) : Bool := !p4Tags.any fun t => decide (t <:+: line)

/-- The lines that count; capirca/aclgen.py:527-528. -/
def countedLines (text : Str) : List Str := (splitOn '\n' text).filter untagged

/-- A hexadecimal digit. -/
def hexDigit (n : Nat) : Char := ("0123456789abcdef".toList).getD n '0'

/-- One byte in `str(bytes)`, with the quote character in use; capirca/aclgen.py:516. -/
def reprByte (quote : Char) (b : Nat) : Str :=
  if b = 0x5c then ['\\', '\\'] else if b = quote.toNat then ['\\', quote]
  else if b = 9 then ['\\', 't'] else if b = 10 then ['\\', 'n'] else if b = 13 then ['\\', 'r']
  else if 32 ≤ b ∧ b < 127 then [Char.ofNat b]
  else ['\\', 'x', hexDigit (b / 16), hexDigit (b % 16)]

/-- `str(f.read())` of a file opened in binary mode: the representation of the bytes;
capirca/aclgen.py:513-516. -/
def bytesText (content : Str) : Str :=
  let bytes := content.flatMap fun c => (String.utf8EncodeChar c).map UInt8.toNat
  let quote := if bytes.contains '\''.toNat && !bytes.contains '"'.toNat then '"' else '\''
  'b' :: quote :: (bytes.flatMap (reprByte quote) ++ [quote])

/-- `FilesUpdated`; capirca/aclgen.py:499-530. -/
def filesUpdated (disk : Disk) (file : Path) (text : Str) (binary : Bool) : Bool :=
  match disk file with
  | none => true
  | some old =>
    if binary then bytesText old != text
    else countedLines (universal old) != countedLines text

/-! ### rendering -/

/-- One rendering of `RenderFile`: the platform that selects it, the suffix given to `RenderACL`, its
`binary` argument; capirca/aclgen.py:292-449. -/
structure Gen where
  platform : String
  suffix : String
  binary : Bool := false
deriving DecidableEq, Repr

/-- The renderings of `RenderFile` in order, with the `SUFFIX` of the generators;
capirca/aclgen.py:293-449. -/
def generators : List Gen :=
  [⟨"juniper", ".jcl", false⟩, ⟨"juniperevo", ".evojcl", false⟩, ⟨"msmpc", ".msmpc", false⟩, ⟨"srx", ".srx", false⟩,
   ⟨"cisco", ".acl", false⟩, ⟨"ciscoasa", ".asa", false⟩, ⟨"aruba", ".aacl", false⟩, ⟨"brocade", ".bacl", false⟩,
   ⟨"arista", ".eacl", false⟩, ⟨"arista_tp", ".atp", false⟩, ⟨"ipset", ".ips", false⟩, ⟨"iptables", "", false⟩,
   ⟨"nsxv", ".nsx", false⟩, ⟨"nsxt", ".nsxt", false⟩, ⟨"openconfig", ".oacl", false⟩, ⟨"speedway", ".ipt", false⟩,
   ⟨"pcap", "-accept.pcap", false⟩, ⟨"pcap", "-deny.pcap", false⟩, ⟨"packetfilter", ".pf", false⟩,
   ⟨"windows_advfirewall", ".bat", false⟩, ⟨"srxlo", ".jsl", false⟩, ⟨"cisconx", ".nxacl", false⟩,
   ⟨"ciscoxr", ".xacl", false⟩, ⟨"nftables", ".nft", false⟩, ⟨"gce", ".gce", false⟩,
   ⟨"gce_vpc_tf", ".tf.json", false⟩, ⟨"gcp_hf", ".gcphf", false⟩, ⟨"paloalto", ".xml", false⟩,
   ⟨"sonic", ".json", true⟩, ⟨"cloudarmor", ".gca", false⟩, ⟨"k8s", ".yml", false⟩]

/-- Outcome of reading and parsing a policy file; capirca/aclgen.py:201-223. -/
inductive Parsed where
  /-- the platforms of all headers -/
  | policy (platforms : List String)
  | shading
  /-- another `policy.Error` or a `naming.Error` -/
  | refused
  | other (e : Err)

/-- Outcome of constructing and printing a generator; capirca/aclgen.py:292-470. -/
inductive Rendered where
  | text (t : Str)
  /-- an exception of a class listed at capirca/aclgen.py:452-468 -/
  | refused
  | other (e : Err)

/-- What a run does not change: directories, and the outcomes of parsing and rendering. -/
structure World where
  base : Path
  out : Path
  parse : Path → Parsed
  render : Path → Gen → Rendered
  writable : Path → Bool := fun _ => true

/-- An entry of `write_files`; capirca/aclgen.py:494. -/
abbrev Entry := Path × Str

/-- `RenderFile` up to the renderings: the output directory and the renderings to do;
capirca/aclgen.py:163-290. -/
def start (w : World) (file : Path) : Except Err (Path × List Gen) :=
  match outputDir w.base w.out file with
  | .error e => .error e
  | .ok dir =>
    match w.parse file with
    | .shading => .ok (dir, [])
    | .refused => .error (.raised "ACLParserError")
    | .other e => .error e
    | .policy platforms => .ok (dir, generators.filter fun g => platforms.contains g.platform)

/-- `RenderACL`: the entries it appends to `write_files`; capirca/aclgen.py:473-496. -/
def renderAcl (disk : Disk) (dir file : Path) (g : Gen) (text : Str) : Except Err (List Entry) :=
  match withSuffix (file.getLastD []) g.suffix.toList with
  | .error e => .error e
  | .ok name => .ok (if filesUpdated disk (dir ++ [name]) text g.binary then [(dir ++ [name], text)] else [])

/-- One rendering of `RenderFile`; capirca/aclgen.py:293-470. -/
def renderOne (w : World) (disk : Disk) (dir file : Path) (g : Gen) : Except Err (List Entry) :=
  match w.render file g with
  | .refused => .error (.raised "ACLGeneratorError")
  | .other e => .error e
  | .text t => renderAcl disk dir file g t

/-- The renderings of `RenderFile`: appended entries and the exception, if any;
capirca/aclgen.py:292-470. -/
def renderGens (w : World) (disk : Disk) (dir file : Path) : List Gen → List Entry × Option Err
  | [] => ([], none)
  | g :: gs =>
    match renderOne w disk dir file g with
    | .error e => ([], some e)
    | .ok es =>
      let r := renderGens w disk dir file gs
      (es ++ r.1, r.2)

/-- `RenderFile`; capirca/aclgen.py:147-470. -/
def renderFile (w : World) (disk : Disk) (file : Path) : List Entry × Option Err :=
  match start w file with
  | .error e => ([], some e)
  | .ok (dir, gs) => renderGens w disk dir file gs

/-! ### writing -/

/-- Writing a file. -/
def put (disk : Disk) (file : Path) (text : Str) : Disk := fun p => if p = file then some text else disk p

/-- `WriteFiles`; capirca/aclgen.py:567-597. -/
def writeFiles (writable : Path → Bool) (disk : Disk) : List Entry → Disk × Option Err
  | [] => (disk, none)
  | (p, t) :: es => if writable p then writeFiles writable (put disk p t) es else (disk, some (.raised "IOError"))

/-- How a run ends: normally, with `sys.exit(1)`, or with an exception; capirca/aclgen.py:668-675. -/
inductive Outcome where
  | done
  | exit1
  | raised (e : Err)
deriving DecidableEq, Repr

/-! ### sequential run -/

/-- The sequential loop over the policies; capirca/aclgen.py:634-645. -/
def renderAll (w : World) (disk : Disk) : List Path → List Entry × Option Err
  | [] => ([], none)
  | f :: fs =>
    match renderFile w disk f with
    | (es, some e) => (es, some e)
    | (es, none) =>
      let r := renderAll w disk fs
      (es ++ r.1, r.2)

/-- `Run` with one renderer or one policy file; capirca/aclgen.py:632-645, 668-675. -/
def runSequential (w : World) (disk : Disk) (files : List Path) : Disk × Outcome :=
  match renderAll w disk files with
  | (_, some e) => (disk, .raised e)
  | (es, none) =>
    match writeFiles w.writable disk es with
    | (d, some e) => (d, .raised e)
    | (d, none) => (d, .done)

/-! ### parallel run -/

/-- State of the task of one policy: waiting in the pool, rendering, or finished with or without an
exception; capirca/aclgen.py:649-658. -/
inductive Task where
  | queued
  | running (dir : Path) (gens : List Gen)
  | finished (e : Option Err)
deriving DecidableEq

/-- State of the main process: waiting in `pool.join()`, writing, or ended;
capirca/aclgen.py:658-675. -/
inductive Main where
  | waiting
  | writing (rest : List Entry) (withErrors : Bool)
  | ended (o : Outcome)

/-- State of a parallel run: the disk, the shared list `write_files`, the tasks and the main process. -/
structure Par where
  disk : Disk
  written : List Entry
  tasks : List (Path × Task)
  main : Main

/-- One step of a task: new state and the entries it appends; capirca/aclgen.py:147-470. -/
def taskStep (w : World) (disk : Disk) (file : Path) : Task → Task × List Entry
  | .queued =>
    match start w file with
    | .error e => (.finished (some e), [])
    | .ok (dir, gs) => (.running dir gs, [])
  | .running _ [] => (.finished none, [])
  | .running dir (g :: gs) =>
    match renderOne w disk dir file g with
    | .error e => (.finished (some e), [])
    | .ok es => (.running dir gs, es)
  | .finished e => (.finished e, [])

/-- The exception classes caught around `result.get()`; capirca/aclgen.py:663. -/
def caught (e : Err) : Bool := e == .raised "ACLParserError" || e == .raised "ACLGeneratorError"

/-- The loop over the results once all tasks are finished: the first exception that is not caught, or
whether there were errors; capirca/aclgen.py:660-666. -/
def collect : List (Option Err) → Except Err Bool
  | [] => .ok false
  | none :: rs => collect rs
  | some e :: rs => if caught e then (match collect rs with | .ok _ => .ok true | .error e' => .error e') else .error e

/-- The results of the tasks, if all are finished; capirca/aclgen.py:658-662. -/
def results : List (Path × Task) → Option (List (Option Err))
  | [] => some []
  | (_, .finished e) :: ts => (results ts).map (e :: ·)
  | _ :: _ => none

/-- One step of a parallel run: some unfinished task goes on, or, when all are finished, the main process;
capirca/aclgen.py:646-675. -/
inductive Step (w : World) : Par → Par → Prop
  | task {s : Par} {pre post : List (Path × Task)} {f : Path} {t : Task} :
      s.main = .waiting → s.tasks = pre ++ (f, t) :: post → (∀ e, t ≠ .finished e) →
      Step w s { s with tasks := pre ++ (f, (taskStep w s.disk f t).1) :: post
                        written := s.written ++ (taskStep w s.disk f t).2 }
  | joined {s : Par} {rs : List (Option Err)} {b : Bool} :
      s.main = .waiting → results s.tasks = some rs → collect rs = .ok b →
      Step w s { s with main := .writing s.written b }
  | uncaught {s : Par} {rs : List (Option Err)} {e : Err} :
      s.main = .waiting → results s.tasks = some rs → collect rs = .error e →
      Step w s { s with main := .ended (.raised e) }
  | write {s : Par} {p : Path} {t : Str} {es : List Entry} {b : Bool} :
      s.main = .writing ((p, t) :: es) b → w.writable p = true →
      Step w s { s with disk := put s.disk p t, main := .writing es b }
  | writeFails {s : Par} {p : Path} {t : Str} {es : List Entry} {b : Bool} :
      s.main = .writing ((p, t) :: es) b → w.writable p = false →
      Step w s { s with main := .ended (.raised (.raised "IOError")) }
  | stop {s : Par} {b : Bool} :
      s.main = .writing [] b → Step w s { s with main := .ended (if b then .exit1 else .done) }

/-- The start of a parallel run; capirca/aclgen.py:646-656. -/
def initial (disk : Disk) (files : List Path) : Par :=
  { disk := disk, written := [], tasks := files.map fun f => (f, .queued), main := .waiting }

/-- The states a parallel run can reach. -/
inductive Reach (w : World) (s₀ : Par) : Par → Prop
  | refl : Reach w s₀ s₀
  | step {s s' : Par} : Reach w s₀ s → Step w s s' → Reach w s₀ s'

/-! ### configuration -/

/-- Configuration options and their values; capirca/utils/config.py:65-76. -/
abbrev Config := List (String × String)

/-- `dict.update`; capirca/utils/config.py:72-74. -/
def update (c : Config) : Config → Config
  | [] => c
  | (k, v) :: rest => update ((k, v) :: c.filter fun e => e.1 != k) rest

/-- Dropping `None` values; capirca/utils/config.py:47-49, 59-62. -/
def dropNone (c : List (String × Option String)) : Config := c.filterMap fun e => e.2.map fun v => (e.1, v)

/-- `merge_files`: later files overwrite earlier ones before `None` values are dropped;
capirca/utils/config.py:52-62. -/
def mergeFiles (files : List (List (String × Option String))) : Config :=
  dropNone (files.foldl (fun acc f => f.foldl (fun a e => e :: a.filter fun x => x.1 != e.1) acc) [])

/-- `generate_configs`; capirca/utils/config.py:65-76. -/
def generateConfigs (defaults : Config) (cli : List (String × Option String))
    (files : List (List (String × Option String))) : Config :=
  update (update defaults (dropNone cli)) (mergeFiles files)

end Aclgen
end Verif
