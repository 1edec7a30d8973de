import Verif.Model.IpsetConfig

/-!
What `ipset restore` does with commands on a host that has some sets already.
-/

namespace Verif.Spec.IpsetHost
open Verif Verif.Ipset

/-- A set of networks in the kernel. -/
structure KSet where
  af : Ver
  maxelem : Nat
  nets : List (Nat × Nat)
deriving DecidableEq

/-- The sets of a host, by name. -/
abbrev Sets := Str → Option KSet

/-- A set gets a new value. -/
def put (h : Sets) (name : Str) (s : KSet) : Sets := fun n => if n = name then some s else h n

/-- One command; `none` if it fails. A set of type `hash:net` takes no network with prefix length 0. -/
def run (h : Sets) : SetCmd → Option Sets
  | .create exist name af _ maxelem =>
    match h name with
    | none => some (put h name ⟨af, maxelem, []⟩)
    | some s => if exist = true ∧ s.af = af ∧ s.maxelem = maxelem then some h else none
  | .add exist name n =>
    match h name with
    | none => none
    | some s =>
      if n.ver ≠ s.af ∨ n.plen = 0 then none
      else if (n.addr, n.plen) ∈ s.nets then (if exist = true then some h else none)
      else if s.maxelem ≤ s.nets.length then none
      else some (put h name { s with nets := s.nets ++ [(n.addr, n.plen)] })

/-- All commands; the first that fails ends it. -/
def restore : Sets → List SetCmd → Option Sets
  | h, [] => some h
  | h, c :: cs => match run h c with
    | none => none
    | some h' => restore h' cs

end Verif.Spec.IpsetHost
