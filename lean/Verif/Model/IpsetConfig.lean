import Verif.Model.Iptables

/-!
Model of the commands for sets that capirca/lib/ipset.py prints before the rules.
-/

namespace Verif
namespace Ipset
open Policy Iptables

/-- A command for `ipset restore`. -/
inductive SetCmd where
  /-- `create [-exist] NAME hash:net family AF hashsize N maxelem M` -/
  | create (exist : Bool) (name : Str) (af : Ver) (hashsize maxelem : Nat)
  /-- `add [-exist] NAME ADDRESS` -/
  | add (exist : Bool) (name : Str) (net : Net)
deriving DecidableEq

/-- `n.bit_length()`; capirca/lib/ipset.py:217. -/
def bitLength (n : Nat) : Nat := if n = 0 then 0 else n.log2 + 1

/-- The commands for one set; capirca/lib/ipset.py:208-226. -/
def setCommands (exist : Bool) (af : Ver) (s : IpSet) : List SetCmd :=
  .create exist s.1 af (2 ^ bitLength s.2.length) (2 ^ bitLength s.2.length) :: s.2.map fun n => .add exist s.1 n

/-- The sets of a filter with the family of the filter; `src` comes before `dst`; capirca/lib/ipset.py:189-192, 215-216. -/
def filterSets (o : Iptables.Out) : Except Err (List (Ver × IpSet)) := do
  let ps ← filterTerms ipset o
  .ok (ps.flatMap fun p => (p.srcSet.toList ++ p.dstSet.toList).map fun s => (o.af, s))

/-- All sets of a policy; capirca/lib/ipset.py:184-195. -/
def allSets (fs : List Filter) : Except Err (List (Ver × IpSet)) := do
  let os ← translate ipset {} fs
  concatM filterSets os

/-- The commands of a policy: `self.filter_options` is that of the last filter; capirca/lib/ipset.py:184-226, iptables.py:708. -/
def setConfig (fs : List Filter) : Except Err (List SetCmd) := do
  let ss ← allSets fs
  let exist := (fs.getLast?.map fun f => f.options.contains "exists").getD false
  .ok (ss.flatMap fun s => setCommands exist s.1 s.2)

end Ipset
end Verif
