import Verif.Spec.Gce
import Verif.Model.Tf

/-!
What the firewall rules of a Terraform configuration do once they are applied: they are rules of Google Compute Engine, whose
actions are called `allow` and `deny` here. Every rule has its priority. Terraform takes one resource of a name only.
-/

namespace Verif.Spec
namespace Tf
open Verif Verif.Gce Policy Aclgenerator
open Verif.Spec.Gce (Flow Header OfFamily)

/-- The rule goes first if both match. -/
def Beats (r s : Rule) : Prop :=
  Spec.Gce.prio r < Spec.Gce.prio s ∨ (Spec.Gce.prio r = Spec.Gce.prio s ∧ (r.action = "deny" ∨ s.action = "allow"))

/-- A rule that matches and goes before all others that match has the action. -/
def Decides (rs : List Rule) (f : Flow) (action : String) : Prop :=
  ∃ r ∈ rs, Spec.Gce.Hits r f ∧ r.action = action ∧ ∀ s ∈ rs, Spec.Gce.Hits s f → Beats r s

/-- The term counts. -/
def Live (g : GTerm) : Prop :=
  g.expired = false ∧ g.reply = false ∧ (g.term.platform = [] ∨ "gce_vpc_tf" ∈ g.term.platform) ∧
  "gce_vpc_tf" ∉ g.term.platformExclude

/-- The term of the filter counts, the filter is for the network, the direction and the family of the flow, the term matches the
flow and has the action. -/
def Wants (fl : Flow) (x : Filter × GTerm) (action : String) : Prop :=
  Live x.2 ∧ (∃ af, Header x.1.options fl.direction af fl.network ∧ OfFamily af fl) ∧
  (Matches x.2.term fl.packet ∧ OneOf x.2.dstAccounts fl.account ∧ OneOf x.2.srcAccounts fl.peer) ∧
  ((x.2.term.action = ["accept"] ∧ action = "allow") ∨ (x.2.term.action = ["deny"] ∧ action = "deny"))

/-- The first term of the policy that counts, is for the flow and matches has the action. -/
def PolicyDecides (fs : List Filter) (fl : Flow) (action : String) : Prop :=
  First (Wants fl) (fs.flatMap fun f => f.terms.map fun g => (f, g)) action

/-- The sizes the firewall takes, but for the description and the lengths of tags. -/
structure Sizes (r : Rule) : Prop where
  name : r.name.length ≤ 63
  sources : r.sourceRanges.length ≤ 256
  destinations : r.destinationRanges.length ≤ 256
  sourceTags : r.sourceTags.length ≤ 30
  targetTags : r.targetTags.length ≤ 70
  sourceAccounts : r.sourceAccounts.length ≤ 10
  targetAccounts : r.targetAccounts.length ≤ 10
  entries : r.entries ≠ [] ∧ ∀ e ∈ r.entries, e.ports.length ≤ 256
  ranges : r.sourceRanges = [] ∨ r.destinationRanges = []
  apart : (r.sourceTags = [] ∧ r.targetTags = []) ∨ (r.sourceAccounts = [] ∧ r.targetAccounts = [])

end Tf
end Verif.Spec
