import Verif.Model.Naming

/-!
Model of `GetNetChildren` of capirca/lib/naming.py.
-/

namespace Verif
namespace Naming

/-- `GetNetChildren`, `_GetChildren` and `_IsIpFormat`; capirca/lib/naming.py:262-311. The parser is `nacaddr.IP(item, strict=False)`, with `none` for
ValueError; `strip` is done twice by the code, which changes nothing. -/
def getNetChildren (nets : Defs) (ip : IpParser) (query : Str) : List Str :=
  match nets.lookup query with
  | none => []
  | some items => (items.map itemTok).filter fun c => (ip c).isNone

end Naming
end Verif
