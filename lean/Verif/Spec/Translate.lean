import Verif.Spec.Policy
import Verif.Spec.Port
import Verif.Model.Translate

/-!
Specification of a term in terms of its definitions: which packets the tokens and service names in
the policy file describe.
-/

namespace Verif.Spec
open Verif Verif.Policy

/-- Address `x` is in a network that one of the tokens names, directly or through nesting. -/
def TokAddr (e : Env) (toks : List Str) (v : Ver) (x : Nat) : Prop :=
  ∃ t ∈ toks, ∃ a s, NetOf e.nets e.ip t a s ∧ Mem a v x

/-- Port `x` is defined by one of the services for one of the protocols (in any case of letters). -/
def SvcPort (e : Env) (names : List Str) (protos : List String) (x : Nat) : Prop :=
  ∃ n ∈ names, ∃ p ∈ protos, ∃ v w, SvcOf e.svcs n v ∧ Covers v x w ∧
    w.map Char.toUpper = p.toList.map Char.toUpper

/-- Included tokens (none = any) without the excluded tokens. -/
def TokMatch (e : Env) (inc exc : List Str) (v : Ver) (x : Nat) : Prop :=
  (inc = [] ∨ TokAddr e inc v x) ∧ ¬ TokAddr e exc v x

/-- Service names, none = any port. -/
def SvcMatch (e : Env) (names : List Str) (protos : List String) (x : Nat) : Prop :=
  names = [] ∨ SvcPort e names protos x

/-- The packet is described by the term of the policy file. -/
def RawMatches (e : Env) (r : RawTerm) (p : Packet) : Prop :=
  (((r.address = [] ∧ r.addressExclude = []) ∨ TokMatch e r.address r.addressExclude p.ver p.src ∨
      TokMatch e r.address r.addressExclude p.ver p.dst) ∧
    TokMatch e r.sourceAddress r.sourceAddressExclude p.ver p.src ∧
    TokMatch e r.destinationAddress r.destinationAddressExclude p.ver p.dst) ∧
  ((r.port = [] ∨ SvcPort e r.port r.rest.protocol p.sport ∨ SvcPort e r.port r.rest.protocol p.dport) ∧
    SvcMatch e r.sourcePort r.rest.protocol p.sport ∧
    SvcMatch e r.destinationPort r.rest.protocol p.dport) ∧
  MatchProto r.rest p ∧ MatchPrefixes r.rest p ∧ MatchMisc r.rest p ∧ MatchRest r.rest p

/-- The definitions are what a load gives: well-formed items, an address parser as in the standard
library, service values that are references or non-empty port ranges of a protocol. -/
structure GoodEnv (e : Env) : Prop where
  nets : ItemsOk e.nets
  svcs : ItemsOk e.svcs
  dots : DotOrColon e.ip
  wf : ∀ v a, e.ip v = some a → WF a
  values : ServiceValues e.svcs
  ordered : ∀ t v lo hi w, HasValue e.svcs t v → PortValue v lo hi w → lo ≤ hi

/-- Names in the term are words. -/
structure WordTerm (r : RawTerm) : Prop where
  nets : ∀ t, t ∈ r.address ∨ t ∈ r.addressExclude ∨ t ∈ r.sourceAddress ∨ t ∈ r.sourceAddressExclude ∨
    t ∈ r.destinationAddress ∨ t ∈ r.destinationAddressExclude → Word t
  svcs : ∀ t, t ∈ r.port ∨ t ∈ r.sourcePort ∨ t ∈ r.destinationPort → Word t

/-- A list of included tokens, if not empty, names at least one network. -/
def NotVoid (e : Env) (toks : List Str) : Prop := toks = [] ∨ ∃ t ∈ toks, ∃ a s, NetOf e.nets e.ip t a s

end Verif.Spec
