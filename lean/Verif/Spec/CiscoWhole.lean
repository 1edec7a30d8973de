import Verif.Spec.CiscoDoc
import Verif.Spec.Cisco

/-!
What a filter of a policy is about on a Cisco router: the access lists that it stands for.
-/

namespace Verif.Spec.CiscoWhole
open Verif Verif.Cisco

/-- A filter with the options stands for a list of the family and the name; the last argument tells whether addresses are summarised to
masks with gaps. A mixed filter stands for two lists. -/
inductive ListOf : List String → Ver → Str → Bool → Prop
  | bare {name : String} : ListOf [name] .v4 name.toList false
  | extended {name : String} {more : List String} : ListOf (name :: "extended" :: more) .v4 name.toList (more.head? == some "enable_dsmo")
  | inet6 {name : String} {more : List String} : more.head? ≠ some "enable_dsmo" → ListOf (name :: "inet6" :: more) .v6 name.toList false
  | mixed4 {name : String} {more : List String} : ListOf (name :: "mixed" :: more) .v4 name.toList (more.head? == some "enable_dsmo")
  | mixed6 {name : String} {more : List String} : ListOf (name :: "mixed" :: more) .v6 ("ipv6-".toList ++ name.toList) false

end Verif.Spec.CiscoWhole
