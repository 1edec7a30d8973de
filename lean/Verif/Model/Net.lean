import Verif.Model.Sort

/-!
IP networks: model of the `nacaddr.IPv4` / `nacaddr.IPv6` classes and of the parts of the
Python 3.11 standard library module `ipaddress` they inherit from.
-/

namespace Verif

/-- Text whose characters matter (comments, names that get truncated, ...). -/
abbrev Str := List Char

/-- Address family; `ipaddress` attribute `version` (4 or 6), used throughout
capirca/lib/nacaddr.py (e.g. :47-50, :85, :90). -/
inductive Ver where
  | v4
  | v6
deriving DecidableEq, Repr

/-- `_max_prefixlen` of the family (ipaddress.py `IPV4LENGTH`/`IPV6LENGTH`). -/
@[reducible] def Ver.bits : Ver → Nat
  | .v4 => 32
  | .v6 => 128

/-- The number Python compares when it sorts by `version`. -/
@[reducible] def Ver.num : Ver → Nat
  | .v4 => 4
  | .v6 => 6

/-- `nacaddr.IPv4` / `nacaddr.IPv6` objects (capirca/lib/nacaddr.py:67-143, 146-221): network
address and prefix length (from `ipaddress`), comment text, token and parent token. -/
structure Net where
  ver : Ver
  addr : Nat
  plen : Nat
  text : Str := []
  token : String := ""
  parent : String := ""
deriving DecidableEq, Repr

namespace Net

/-- `_ALL_ONES` of the family: `(2**bits) - 1` (ipaddress.py). -/
@[reducible] def allOnes (v : Ver) : Nat := 2 ^ v.bits - 1

/-- `int(net.netmask)`; ipaddress.py `_ip_int_from_prefix`:
`_ALL_ONES ^ (_ALL_ONES >> prefixlen)`. -/
def netmask (n : Net) : Nat := allOnes n.ver ^^^ (allOnes n.ver >>> n.plen)

/-- `int(net.hostmask)`; ipaddress.py: `int(self.netmask) ^ self._ALL_ONES`. -/
def hostmask (n : Net) : Nat := n.netmask ^^^ allOnes n.ver

/-- `net.broadcast_address._ip`; ipaddress.py:758-761:
`int(self.network_address) | int(self.hostmask)`. -/
def broadcast (n : Net) : Nat := n.addr ||| n.hostmask

/-- `num_addresses`-style host bit count `max_prefixlen - prefixlen`. -/
@[reducible] def hbits (n : Net) : Nat := n.ver.bits - n.plen

/-- `address in net`; ipaddress.py:739-749
(`other._ip & self.netmask._ip == self.network_address._ip`, False across versions). -/
def hasAddr (n : Net) (v : Ver) (x : Nat) : Bool :=
  n.ver == v && (x &&& n.netmask) == n.addr

/-- `self.overlaps(other)`; ipaddress.py:751-756. -/
def overlaps (a b : Net) : Bool :=
  b.hasAddr a.ver a.addr || b.hasAddr a.ver a.broadcast ||
  a.hasAddr b.ver b.addr || a.hasAddr b.ver b.broadcast

/-- `a.subnet_of(b)`; capirca/lib/nacaddr.py:54-64, 83-87, 162-166: False on version mismatch,
otherwise compare both ends. -/
def subnetOf (a b : Net) : Bool :=
  a.ver == b.ver && decide (b.addr ≤ a.addr) && decide (a.broadcast ≤ b.broadcast)

/-- `a.supernet_of(b)`; capirca/lib/nacaddr.py:89-93, 168-172. -/
def supernetOf (a b : Net) : Bool := b.subnetOf a

/-- Python `==` of networks (ipaddress.py:728-734): version, address, netmask; comments and
tokens are ignored. -/
def eqv (a b : Net) : Bool := a.ver == b.ver && a.addr == b.addr && a.netmask == b.netmask

/-- `_get_networks_key()` comparison (ipaddress.py:919-927): lexicographic on
(version, network_address, netmask); `ipaddress.get_mixed_type_key` gives this key for
networks. Strict version. -/
def keyLt (a b : Net) : Bool :=
  decide (a.ver.num < b.ver.num) ||
  (a.ver.num == b.ver.num && (decide (a.addr < b.addr) ||
    (a.addr == b.addr && decide (a.netmask < b.netmask))))

/-- Non-strict version of `keyLt` (ipaddress.py:919-927). -/
def keyLe (a b : Net) : Bool := !keyLt b a

/-- `AddComment`; capirca/lib/nacaddr.py:102-114, 209-221. -/
def addComment (n : Net) (c : Str) : Net :=
  if n.text ≠ [] then
    if c ≠ [] ∧ ¬ (c <:+: n.text) then { n with text := n.text ++ ", ".toList ++ c } else n
  else { n with text := c }

/-- `supernet()` with the default `prefixlen_diff=1`; capirca/lib/nacaddr.py:116-139, 181-203 and
ipaddress.py:982-1020: `address & (netmask << 1)`, prefix length one less; prefix length 0 returns
the object itself; the new object carries `text` and `token`, its parent token is `token`. -/
def supernet (n : Net) : Net :=
  if n.plen = 0 then n
  else { ver := n.ver, addr := n.addr &&& (n.netmask <<< 1), plen := n.plen - 1,
         text := n.text, token := n.token, parent := n.token }

end Net
end Verif
