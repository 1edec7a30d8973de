import Verif.Model.Net
import Verif.Model.Err

/-!
Model of capirca/lib/nacaddr.py and capirca/utils/iputils.py (plus the standard library function
`ipaddress.summarize_address_range` used by the latter).
-/

namespace Verif
namespace Nacaddr

/-- `_InNetList`; capirca/lib/nacaddr.py:227-232. -/
def inNetList (adders : List Net) (ip : Net) : Bool := adders.any (fun a => ip.subnetOf a)

/-- `IsSuperNet`; capirca/lib/nacaddr.py:235-240. -/
def isSuperNet (supernets subnets : List Net) : Bool := subnets.all (inNetList supernets)

/-- `_SafeToMerge`; capirca/lib/nacaddr.py:274-293. The last argument is the dict entry for
`address.network_address`. Comparing netmask objects of different families raises `TypeError`. -/
def safeToMerge (address target : Net) : List Net → Except Err Bool
  | [] => .ok true
  | ca :: rest =>
    if target.ver ≠ ca.ver then .error .typeError
    else if target.netmask ≤ ca.netmask ∧ ca.netmask < address.netmask then .ok false
    else safeToMerge address target rest

/-- `complements_by_network.get(net.network_address, [])`; capirca/lib/nacaddr.py:290,
`defaultdict` keyed by address object (family and number). -/
def compsAt (comps : List Net) (n : Net) : List Net :=
  comps.filter (fun c => c.ver == n.ver && c.addr == n.addr)

/-- The sibling test of `_CollapseAddrListInternal`; capirca/lib/nacaddr.py:338-345. -/
def mergeable (prev addr : Net) : Bool :=
  prev.ver == addr.ver && prev.plen == addr.plen && prev.broadcast + 1 == addr.addr &&
  ((prev.netmask <<< 1) &&& prev.addr) == prev.addr

/-- Inner `while addr_is_fresh` loop of `_CollapseAddrListInternal`;
capirca/lib/nacaddr.py:325-351. `ret_array` is kept reversed (head = `ret_array[-1]`). -/
def push (comps : List Net) : List Net → Net → Except Err (List Net)
  | [], a => .ok [a]
  | p :: rest, a =>
    match safeToMerge a p (compsAt comps a) with
    | .error e => .error e
    | .ok false => .ok (a :: p :: rest)
    | .ok true =>
      if p.supernetOf a then .ok (p.addComment a.text :: rest)
      else if mergeable p a then push comps rest (p.addComment a.text).supernet
      else .ok (a :: p :: rest)

/-- Outer `for addr in addresses` loop of `_CollapseAddrListInternal`;
capirca/lib/nacaddr.py:323-324,353. -/
def collapseLoop (comps : List Net) : List Net → List Net → Except Err (List Net)
  | ret, [] => .ok ret
  | ret, a :: as =>
    match push comps ret a with
    | .error e => .error e
    | .ok ret' => collapseLoop comps ret' as

/-- `SortAddrList`; capirca/lib/nacaddr.py:391-393. -/
def sortAddrList (l : List Net) : List Net := isort Net.keyLe l

/-- The complements kept by `CollapseAddrList`; capirca/lib/nacaddr.py:382-386: only those whose
network address is the network address of some input. -/
def keptComps (addresses comps : List Net) : List Net :=
  comps.filter (fun c => addresses.any (fun a => a.ver == c.ver && a.addr == c.addr))

/-- `CollapseAddrList(addresses, complement_addresses)`; capirca/lib/nacaddr.py:356-388
(`complement_addresses=None` is the empty list). -/
def collapseAddrList (addresses comps : List Net) : Except Err (List Net) :=
  match collapseLoop (keptComps addresses comps) [] (sortAddrList addresses) with
  | .error e => .error e
  | .ok ret => .ok ret.reverse

/-! `push`/`collapseLoop` specialised to no complements: nothing can raise. -/

/-- `_CollapseAddrListInternal` inner loop with an empty complement dict;
capirca/lib/nacaddr.py:325-351. -/
def push0 : List Net → Net → List Net
  | [], a => [a]
  | p :: rest, a =>
    if p.supernetOf a then p.addComment a.text :: rest
    else if mergeable p a then push0 rest (p.addComment a.text).supernet
    else a :: p :: rest

/-- `CollapseAddrList(addresses)` without complements; capirca/lib/nacaddr.py:356-388
(proved equal to `collapseAddrList addresses []` in `Lemmas/Collapse.lean`). -/
def collapse (addresses : List Net) : List Net :=
  ((sortAddrList addresses).foldl push0 []).reverse

/-- Stable order by `parent_token` (`sorted(addresses, key=lambda x: x.parent_token)`);
capirca/lib/nacaddr.py:253. -/
def parentLe (a b : Net) : Bool := !decide (b.parent < a.parent)

/-- `itertools.groupby(..., lambda x: x.parent_token)`; capirca/lib/nacaddr.py:253-255: maximal
runs of equal parent token. -/
def groupByParent : List Net → List (List Net)
  | [] => []
  | a :: as =>
    match groupByParent as with
    | [] => [[a]]
    | [] :: gs => [a] :: gs
    | (b :: bs) :: gs => if a.parent = b.parent then (a :: b :: bs) :: gs else [a] :: (b :: bs) :: gs

/-- Inner `while k < len(dedup_array)` loop of `CollapseAddrListPreserveTokens`;
capirca/lib/nacaddr.py:260-268. Returns the new `dedup_array` and `to_add`. After `del
dedup_array[k]` the code still does `k += 1`, so the element that moved into position `k` is
skipped (second clause of the `match`). -/
def dedupInner (ip : List Net) : List (List Net) → List (List Net) × Bool
  | [] => ([], true)
  | d :: ds =>
    if isSuperNet d ip then (d :: ds, false)
    else if isSuperNet ip d then
      match ds with
      | [] => ([], true)
      | e :: es => let r := dedupInner ip es; (e :: r.1, r.2)
    else let r := dedupInner ip ds; (d :: r.1, r.2)

/-- Outer loop of `CollapseAddrListPreserveTokens`; capirca/lib/nacaddr.py:256-270. -/
def dedupOuter : List (List Net) → List (List Net) → List (List Net)
  | dedup, [] => dedup
  | dedup, ip :: rest =>
    let r := dedupInner ip dedup
    dedupOuter (if r.2 then r.1 ++ [ip] else r.1) rest

/-- `CollapseAddrListPreserveTokens`; capirca/lib/nacaddr.py:243-271. -/
def collapsePreserveTokens (addresses : List Net) : List Net :=
  (dedupOuter [] ((groupByParent (isort parentLe addresses)).map collapse)).flatten

/-! ### exclusion -/

/-- Python `int.bit_length()` of a non-negative integer. -/
def bitLength (n : Nat) : Nat := if n = 0 then 0 else n.log2 + 1

/-- `_count_righthand_zero_bits`; ipaddress.py:184-197. `~n & (n-1)` is written
`(n-1) ^ ((n-1) & n)` to stay in the natural numbers. -/
def countRightZeros (n bits : Nat) : Nat :=
  if n = 0 then bits else min bits (bitLength ((n - 1) ^^^ ((n - 1) &&& n)))

/-- Loop of `ipaddress.summarize_address_range`; ipaddress.py:242-252. The first argument is
fuel; `summarizeRange` supplies the number of addresses in the range. -/
def summarizeLoop (v : Ver) : Nat → Nat → Nat → List Net
  | 0, _, _ => []
  | fuel + 1, first, last =>
    if first ≤ last then
      let nbits := min (countRightZeros first v.bits) (bitLength (last - first + 1) - 1)
      let net : Net := { ver := v, addr := first, plen := v.bits - nbits }
      let next := first + 1 <<< nbits
      if next - 1 = Net.allOnes v then [net] else net :: summarizeLoop v fuel next last
    else []

/-- `ipaddress.summarize_address_range`; ipaddress.py:200-252: `ValueError` if `first > last`. -/
def summarizeRange (v : Ver) (first last : Nat) : Except Err (List Net) :=
  if first > last then .error .valueError
  else .ok (summarizeLoop v (last + 1 - first) first last)

/-- `iputils.exclude_address`; capirca/utils/iputils.py:6-69 (a generator; the model returns the
whole list). The results are fresh networks without comment or token. -/
def excludeAddress (base ex : Net) : Except Err (List Net) :=
  if base.ver ≠ ex.ver then .error .typeError
  else if ¬ ex.subnetOf base then .error .valueError
  else if ex.eqv base then .ok []
  else if base.addr = ex.addr then summarizeRange base.ver (ex.broadcast + 1) base.broadcast
  else if base.broadcast = ex.broadcast then summarizeRange base.ver base.addr (ex.addr - 1)
  else do
    let l ← summarizeRange base.ver base.addr (ex.addr - 1)
    let r ← summarizeRange base.ver (ex.broadcast + 1) base.broadcast
    .ok (l ++ r)

/-- Loop of `RemoveAddressFromList`; capirca/lib/nacaddr.py:406-415. -/
def removeLoop (exclude : Net) : List Net → Except Err (List Net)
  | [] => .ok []
  | addr :: rest => do
    let here ←
      if exclude.eqv addr || addr.subnetOf exclude then .ok []
      else if exclude.ver == addr.ver && exclude.subnetOf addr then excludeAddress addr exclude
      else .ok [addr]
    let there ← removeLoop exclude rest
    .ok (here ++ there)

/-- `RemoveAddressFromList`; capirca/lib/nacaddr.py:396-416. -/
def removeAddressFromList (superset : List Net) (exclude : Net) : Except Err (List Net) := do
  let r ← removeLoop exclude superset
  .ok (sortAddrList r)

/-- The `while superset and excludes` loop of `AddressListExclude`;
capirca/lib/nacaddr.py:437-446. Stacks have their top at the head. Returns
`ret_array + superset` (with `ret_array` in append order and the remaining stack bottom-first, as
in the code). First argument is fuel, `Err.diverges` if it runs out (proved unreachable). -/
def sweep : Nat → List Net → List Net → List Net → Except Err (List Net)
  | _, [], _, ret => .ok ret.reverse
  | _, sup, [], ret => .ok (ret.reverse ++ sup.reverse)
  | 0, _ :: _, _ :: _, _ => .error .diverges
  | fuel + 1, s :: sup, e :: exs, ret =>
    if s.overlaps e then do
      let pieces ← removeAddressFromList [s] e
      sweep fuel (pieces ++ sup) (e :: exs) ret
    else if s.keyLt e then sweep fuel sup (e :: exs) (s :: ret)
    else sweep fuel (s :: sup) exs ret

/-- Number of addresses of a network (`num_addresses`), used only for fuel. -/
def size (n : Net) : Nat := 2 ^ (n.ver.bits - n.plen)

/-- Fuel for `sweep`: every iteration either removes at least one address from the superset stack
or pops an exclude. Not part of the code. -/
def sweepFuel (sup exs : List Net) : Nat := (sup.map size).sum + exs.length

/-- `sorted(xs)` on network objects raises `TypeError` if two families are compared
(ipaddress.py:716-721); any sort of a list containing both families compares some pair of
different families. -/
def mixed (l : List Net) : Bool := l.any (fun a => l.any (fun b => a.ver != b.ver))

/-- `set(...)` of networks: duplicates (Python `==`) removed, first representative kept;
capirca/lib/nacaddr.py:450. Iteration order is irrelevant because the result is sorted. -/
def dedupNets : List Net → List Net → List Net
  | seen, [] => seen.reverse
  | seen, a :: as => if seen.any (fun s => s.eqv a) then dedupNets seen as else dedupNets (a :: seen) as

/-- `AddressListExclude(superset, excludes, collapse_addrs)`; capirca/lib/nacaddr.py:419-450.
`sorted(..., reverse=True)` followed by popping from the end visits the entries in the order of a
stable sort of the reversed list. -/
def addressListExclude (superset excludes : List Net) (collapseAddrs : Bool := true) :
    Except Err (List Net) :=
  if collapseAddrs then do
    let sup := collapse superset
    let exs := collapse excludes
    let r ← sweep (sweepFuel sup exs) sup exs []
    .ok (collapse r)
  else if mixed superset || mixed excludes then .error .typeError
  else do
    let sup := isort Net.keyLe superset.reverse
    let exs := isort Net.keyLe excludes.reverse
    let r ← sweep (sweepFuel sup exs) sup exs []
    let d := dedupNets [] r
    if mixed d then .error .typeError else .ok (sortAddrList d)

end Nacaddr
end Verif
