import Verif.Model.Nacaddr

/-!
Model of capirca/lib/summarizer.py.
-/

namespace Verif
namespace Summarizer
open Nacaddr

/-- `DSMNet`; capirca/lib/summarizer.py:23-39: integer address and integer (possibly
discontiguous) netmask. -/
structure DSM where
  address : Nat
  netmask : Nat
  text : Str := []
deriving DecidableEq, Repr

/-- `DSMNet.MergeText`; capirca/lib/summarizer.py:87-104. -/
def mergeText (d : DSM) (text : Str) : Str :=
  if d.text ≠ [] then
    if text ≠ [] ∧ ¬ (text <:+: d.text) then d.text ++ ", ".toList ++ text else d.text
  else text

/-- `_NacaddrNetToDSMNet`; capirca/lib/summarizer.py:183-199. -/
def toDSM (n : Net) : DSM :=
  { address := n.addr, netmask := ((1 <<< n.plen) - 1) <<< (n.ver.bits - n.plen), text := n.text }

/-- The pair test of `_SummarizeSameMask`; capirca/lib/summarizer.py:269-274. -/
def isPair (c p : DSM) : Bool :=
  let x := c.address ^^^ p.address
  c.netmask == p.netmask && (x &&& (x - 1)) == 0 && decide (x > 0)

/-- The merged network of a pair; capirca/lib/summarizer.py:279-284. -/
def mergePair (c p : DSM) : DSM :=
  { address := min c.address p.address, netmask := c.netmask ^^^ (c.address ^^^ p.address),
    text := mergeText c p.text }

/-- `for pair_net_index, pair_net in enumerate(current_nets)`: first pair partner and the list
with it popped; capirca/lib/summarizer.py:268-278. -/
def findPair (c : DSM) : List DSM → Option (DSM × List DSM)
  | [] => none
  | p :: ps =>
    if isPair c p then some (p, ps)
    else (findPair c ps).map (fun r => (r.1, p :: r.2))

/-- `while current_nets:`; capirca/lib/summarizer.py:265-287. Returns the (singletons,
combinetons) added by one round. Fuel: the length of the list. -/
def round : Nat → List DSM → List DSM × List DSM
  | _, [] => ([], [])
  | 0, _ => ([], [])
  | fuel + 1, c :: cs =>
    match findPair c cs with
    | some (p, rest) => let r := round fuel rest; (r.1, mergePair c p :: r.2)
    | none => let r := round fuel cs; (c :: r.1, r.2)

/-- `while combinetons:`; capirca/lib/summarizer.py:256-288 (`_SummarizeSameMask`). Fuel: the
length of the list (each round at least halves it). -/
def rounds : Nat → List DSM → List DSM
  | _, [] => []
  | 0, _ => []
  | fuel + 1, nets => let r := round nets.length nets; r.1 ++ rounds fuel r.2

/-- `_SummarizeSameMask`; capirca/lib/summarizer.py:245-288. -/
def summarizeSameMask (nets : List DSM) : List DSM := rounds nets.length nets

/-- `nets_by_netmask` keys in insertion order; capirca/lib/summarizer.py:235-238. -/
def plens : List Net → List Nat
  | [] => []
  | n :: ns => n.plen :: (plens ns).filter (· != n.plen)

/-- `Summarize`; capirca/lib/summarizer.py:220-242. `sorted` compares addresses only
(`__lt__`, :69-75). -/
def summarize (nets : List Net) : List DSM :=
  let opt := collapse nets
  isort (fun a b => decide (a.address ≤ b.address))
    (((plens opt).map fun p => summarizeSameMask ((opt.filter (fun n => n.plen == p)).map toDSM)).flatten)

/-- A rendered mask: dotted quad or prefix length. The decimal digits and dots of the text are not
modelled, only the numbers. -/
inductive MaskText where
  | quad (a b c d : Nat)
  | plen (n : Nat)
deriving DecidableEq, Repr

/-- `_Int32ToDottedQuad`; capirca/lib/summarizer.py:165-180. The argument may be negative
(`~mask`); `num & 0xFF` of a Python integer is `num mod 256`, `>>` is floor division. -/
def quad (num : Int) : MaskText :=
  .quad (num / 256 / 256 / 256 % 256).toNat (num / 256 / 256 % 256).toNat (num / 256 % 256).toNat
    (num % 256).toNat

/-- `'{:032b}'.format(intmask)` for a non-negative 32 bit mask; capirca/lib/summarizer.py:154. -/
def bits32 (m : Nat) : List Bool := (List.range 32).map (fun i => m.testBit (31 - i))

/-- `_PrefixlenForNonDSM`; capirca/lib/summarizer.py:139-162, for non-negative masks (no caller
combines `negate` and `nondsm`). -/
def prefixlenForNonDSM (m : Nat) : MaskText :=
  if m = 2 ^ 32 - 1 then .plen 32
  else
    let p := ((bits32 m).takeWhile id).length
    if ((bits32 m).drop p).any id then quad m else .plen p

/-- `ToDottedQuad`; capirca/lib/summarizer.py:107-136. -/
def toDottedQuad (d : DSM) (negate nondsm : Bool := false) : Except Err (MaskText × MaskText) :=
  if bitLength d.address > 32 then .error .valueError
  else if ¬ (bitLength d.netmask = 0 ∨ bitLength d.netmask = 32) then .error .valueError
  else if nondsm then .ok (quad d.address, prefixlenForNonDSM d.netmask)
  else .ok (quad d.address, quad (if negate then -(d.netmask : Int) - 1 else d.netmask))

end Summarizer
end Verif
