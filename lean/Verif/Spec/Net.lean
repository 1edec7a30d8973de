import Verif.Model.Net

/-!
Specification of what networks denote: sets of points `(family, number)`.
Independent of the bit operations used by the code.
-/

namespace Verif.Spec

/-- Point `x` of family `v` belongs to network `n`: plain interval arithmetic.
(Specification; the code tests `x & netmask == network`.) -/
def Mem (n : Net) (v : Ver) (x : Nat) : Prop :=
  n.ver = v ∧ n.addr ≤ x ∧ x < n.addr + 2 ^ (n.ver.bits - n.plen)

/-- A network that `ipaddress.ip_network(..., strict=True)` can build: prefix length in range and
host bits zero, address in range. -/
structure WF (n : Net) : Prop where
  plen_le : n.plen ≤ n.ver.bits
  aligned : 2 ^ (n.ver.bits - n.plen) ∣ n.addr
  range : n.addr + 2 ^ (n.ver.bits - n.plen) ≤ 2 ^ n.ver.bits

/-- The set denoted by a list of networks. -/
def Den (l : List Net) (v : Ver) (x : Nat) : Prop := ∃ n ∈ l, Mem n v x

/-- Two lists denote the same addresses. -/
def SameDen (l m : List Net) : Prop := ∀ v x, Den l v x ↔ Den m v x

/-- No two distinct positions of the list share an address. -/
def Disjoint (l : List Net) : Prop := l.Pairwise (fun a b => ∀ v x, ¬ (Mem a v x ∧ Mem b v x))

/-- `a` and `b` are the lower and the upper half of one network. -/
def Siblings (a b : Net) : Prop :=
  a.ver = b.ver ∧ a.plen = b.plen ∧ a.plen ≠ 0 ∧
  b.addr = a.addr + 2 ^ (a.ver.bits - a.plen) ∧ 2 ^ (a.ver.bits - a.plen + 1) ∣ a.addr

/-- No two members of the list are halves of one network. -/
def SiblingFree (l : List Net) : Prop := ∀ a ∈ l, ∀ b ∈ l, ¬ Siblings a b

/-- Strictly ascending by (family, address, prefix length). -/
def KeyLt (a b : Net) : Prop :=
  a.ver.num < b.ver.num ∨ (a.ver = b.ver ∧ (a.addr < b.addr ∨ (a.addr = b.addr ∧ a.plen < b.plen)))

/-- Sorted, disjoint, sibling-free: the canonical CIDR form of a set of addresses. -/
structure Canonical (l : List Net) : Prop where
  sorted : l.Pairwise KeyLt
  disjoint : Disjoint l
  sibfree : SiblingFree l

/-- The address block of a network, forgetting comments and tokens. -/
def block (n : Net) : Ver × Nat × Nat := (n.ver, n.addr, n.plen)

end Verif.Spec

namespace Verif.Spec

/-- Most-specific-match semantics of an include list with an exclude list: a point is matched if
some include containing it is strictly longer than every exclude containing it.
(Specification of what Junos prefix lists with `except` do; ties go to the exclude.) -/
def LpmMatch (inc exc : List Net) (v : Ver) (x : Nat) : Prop :=
  ∃ n ∈ inc, Mem n v x ∧ ∀ e ∈ exc, Mem e v x → e.plen < n.plen

/-- `a` is a proper part of `e`. -/
def StrictSub (a e : Net) : Prop := (∀ v x, Mem a v x → Mem e v x) ∧ ¬ ∀ v x, Mem e v x → Mem a v x

end Verif.Spec
