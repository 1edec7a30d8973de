import Verif.Model.PyStr
import Verif.Model.Err

/-!
Model of capirca/lib/port.py.
-/

namespace Verif
namespace Port
open PyStr

/-- `PPP`; capirca/lib/port.py:40-64. `port = none` is a nested service name. -/
structure PPP where
  service : Str
  port : Option Str
  protocol : Option Str
  nested : Bool
deriving DecidableEq, Repr

/-- `PPP.__init__`; capirca/lib/port.py:46-64. -/
def mkPPP (service : Str) : PPP :=
  let s := strip (before '#' service)
  if s.contains '/' then
    { service := s, port := some ((splitOn '/' s).getD 0 []), protocol := some ((splitOn '/' s).getD 1 []),
      nested := false }
  else { service := s, port := none, protocol := none, nested := true }

/-- `is_range`; capirca/lib/port.py:66-71 (an empty port string is falsy). -/
def PPP.isRange (p : PPP) : Bool :=
  match p.port with
  | some s => !s.isEmpty && s.contains '-'
  | none => false

/-- `is_single_port`; capirca/lib/port.py:73-78. -/
def PPP.isSinglePort (p : PPP) : Bool :=
  match p.port with
  | some s => !s.isEmpty && !s.contains '-'
  | none => false

/-- `start`; capirca/lib/port.py:80-87. -/
def PPP.start (p : PPP) : Except Err Int :=
  match p.port with
  | some s =>
    if s.contains '-' then
      match pyInt ((splitOn '-' s).getD 0 []) with
      | some i => .ok i
      | none => .error .valueError
    else .error (.raised "InvalidRange")
  | none => .error (.raised "InvalidRange")

/-- `end`; capirca/lib/port.py:89-95. -/
def PPP.«end» (p : PPP) : Except Err Int :=
  match p.port with
  | some s =>
    if s.contains '-' then
      match pyInt ((splitOn '-' s).getD 1 []) with
      | some i => .ok i
      | none => .error .valueError
    else .error (.raised "InvalidRange")
  | none => .error (.raised "InvalidRange")

/-- `int(other.port)`, `None` and bad text being errors (swallowed by the callers);
capirca/lib/port.py:100, 108. -/
def PPP.portInt (p : PPP) : Option Int := p.port.bind pyInt

/-- `other in self`; capirca/lib/port.py:97-103: any exception becomes `InvalidRange`. Chained
comparison: the end of the range is not evaluated when the first comparison fails. -/
def PPP.contains (self other : PPP) : Except Err Bool :=
  match self.start, other.portInt with
  | .ok s, some o =>
    if s ≤ o then
      match self.end with
      | .ok e => .ok (decide (o ≤ e) && self.protocol == other.protocol)
      | .error _ => .error (.raised "InvalidRange")
    else .ok false
  | _, _ => .error (.raised "InvalidRange")

/-- Comparison helper of the ordering methods; capirca/lib/port.py:105-139. -/
def PPP.cmp (op : Int → Int → Bool) (self other : PPP) : Except Err Bool :=
  if self.isSinglePort then
    match self.portInt, other.portInt with
    | some a, some b => .ok (op a b)
    | _, _ => .ok false
  else .error (.raised "NotSinglePort")

/-- `__lt__`; capirca/lib/port.py:105-112. -/
def PPP.lt : PPP → PPP → Except Err Bool := PPP.cmp (fun a b => decide (a < b))

/-- `__gt__`; capirca/lib/port.py:114-121. -/
def PPP.gt : PPP → PPP → Except Err Bool := PPP.cmp (fun a b => decide (a > b))

/-- `__le__`; capirca/lib/port.py:123-130. -/
def PPP.le : PPP → PPP → Except Err Bool := PPP.cmp (fun a b => decide (a ≤ b))

/-- `__ge__`; capirca/lib/port.py:132-139. -/
def PPP.ge : PPP → PPP → Except Err Bool := PPP.cmp (fun a b => decide (a ≥ b))

/-- `__eq__`; capirca/lib/port.py:141-149. -/
def PPP.eq (self other : PPP) : Except Err Bool :=
  if self.isSinglePort then
    match self.portInt, other.portInt with
    | some a, some b => .ok (a == b && self.protocol == other.protocol)
    | _, _ => .ok false
  else .error (.raised "NotSinglePort")

/-- `Port` on the result of `int(port)`; capirca/lib/port.py:152-173. -/
def checkPort : Option Int → Except Err Int
  | none => .error (.raised "BadPortValue")
  | some v => if v < 0 ∨ v > 65535 then .error (.raised "BadPortRange") else .ok v

/-- `Port(port)` for a string; capirca/lib/port.py:152-173. -/
def portOfStr (s : Str) : Except Err Int := checkPort (pyInt s)

/-- `Port(port)` for an integer; capirca/lib/port.py:152-173. -/
def portOfInt (i : Int) : Except Err Int := checkPort (some i)

end Port
end Verif
