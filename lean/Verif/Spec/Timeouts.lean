import Verif.Spec.Msmpc
import Verif.Spec.Srx

/-!
When sessions that are let through by an application end.
-/

namespace Verif.Spec.Timeouts
open Verif
open Verif.Srx (STerm AppTerm Def)

/-- After how many seconds without packets sessions are to end that a term lets through: after those it says, after a minute if it is about
types of ICMP, and otherwise as the device is set up. -/
inductive Idles (g : STerm) : Option Nat → Prop
  | said {n : Nat} : g.timeout = some n → Idles g (some n)
  | icmp : g.timeout = none → g.term.icmpType ≠ [] → Idles g (some 60)
  | device : g.timeout = none → g.term.icmpType = [] → Idles g none

/-- The MS-MPC application is one to which the rule refers. -/
def MsmpcUses (o : Msmpc.Group) (r : Msmpc.Rule) (d : Msmpc.AppDef) : Prop :=
  ∃ s ms, r.appSet = some s ∧ (s, ms) ∈ o.sets ∧ d.name ∈ ms ∧ d ∈ o.apps

/-- The term of an SRX application is one to which the policy refers. -/
def SrxUses (ds : List Def) (q : Srx.SPolicy) (t : AppTerm) : Prop :=
  ∃ a, q.app = some a ∧ ∃ ts, t ∈ ts ∧ (Def.app (a ++ "-app".toList) ts ∈ ds ∨
    ∃ ms, Def.set (a ++ "-app".toList) ms ∈ ds ∧ ∃ m ∈ ms, Def.app m ts ∈ ds)

end Verif.Spec.Timeouts
