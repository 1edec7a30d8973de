import Verif.Model.SrxText
import Verif.Spec.VersaText

/-!
What the text of an SRX configuration should say: the statements and blocks that a device reads (`VersaText.reads`).
-/

namespace Verif.Spec.SrxRead
open Verif Verif.Srx
open Verif.Spec.VersaText (Item Plain Quiet)

/-- The words. -/
def wordsOf (ws : List String) : List Str := ws.map String.toList

/-- A statement with a list in brackets; none if the list is empty. -/
def listItem (name : String) (l : List String) : List Item := if l = [] then [] else [.stmt (wordsOf ([name, "["] ++ l ++ ["]"]))]

/-- The addresses of a side. -/
def sideAddresses (name : String) : Option (List String) → Item
  | none => .stmt (wordsOf [name, "any"])
  | some l => .stmt (wordsOf ([name, "["] ++ l ++ ["]"]))

/-- The action, in a tunnel if there is one. -/
def actionItem (t : Then) : Item :=
  match t.vpn with
  | none => .stmt (wordsOf [t.action])
  | some v => .block (wordsOf [t.action]) [.block (wordsOf ["tunnel"])
      (.stmt (wordsOf ["ipsec-vpn", v.1]) :: if v.2 = "" then [] else [.stmt (wordsOf ["pair-policy", v.2])])]

/-- What is done with a packet. -/
def thenItem (t : Then) : Item :=
  .block (wordsOf ["then"]) (actionItem t :: ((match t.dscpSet with | none => [] | some s => [.stmt (wordsOf ["dscp", s])]) ++
    ((if t.logs = [] then [] else [.block (wordsOf ["log"]) (t.logs.map fun s => .stmt (wordsOf [s]))]) ++
      (if t.count then [.stmt (wordsOf ["count"])] else []))))

/-- The application of a policy. -/
def appWord : Option Str → Str
  | none => "any".toList
  | some a => a ++ "-app".toList

/-- A policy. -/
def policyItem (q : SPolicy) : Item :=
  .block ["policy".toList, q.name] (.block (wordsOf ["match"])
    (sideAddresses "source-address" q.src :: sideAddresses "destination-address" q.dst ::
      .stmt ["application".toList, appWord q.app] ::
      (listItem "dscp" q.dscp ++ (listItem "dscp-except" q.dscpExcept ++ (listItem "from-zone" q.fromZones ++ listItem "to-zone" q.toZones)))) ::
    q.thens.map thenItem)

/-- A filter. -/
def blockItem (b : BlockText) : Item :=
  .block (wordsOf (if b.fromZone = "all" ∧ b.toZone = "all" then ["global"] else ["from-zone", b.fromZone, "to-zone", b.toZone]))
    (listItem "apply-groups" b.groups ++ (listItem "apply-groups-except" b.groupsExcept ++ b.policies.map fun x => policyItem x.policy))

/-- The addresses and sets of an address book. -/
def entryItems (text : Net → String) (b : Book) : List Item :=
  (b.addresses.map fun a => .stmt (wordsOf ["address", a.1, text a.2])) ++
  b.sets.map fun s => .block (wordsOf ["address-set", s.1]) (s.2.map fun m => .stmt (wordsOf ["address", m]))

/-- An address book: of all zones, or of one. -/
def bookItem (text : Net → String) (b : Book) : Item :=
  match b.zone with
  | none => .block (wordsOf ["replace:", "address-book"]) [.block (wordsOf ["global"]) (entryItems text b)]
  | some z => .block (wordsOf ["security-zone", z]) [.block (wordsOf ["replace:", "address-book"]) (entryItems text b)]

/-- The address books: those of zones are together in one block. -/
def bookItems (text : Net → String) (l : List Book) : List Item :=
  if ∃ b ∈ l, b.zone = none then l.map (bookItem text) else [.block (wordsOf ["zones"]) (l.map (bookItem text))]

/-- Lines whose braces match and whose words are plain, and the statements and blocks that they are. -/
inductive Shows : List Line → List Item → Prop
  | nil : Shows [] []
  | stmt {ws : List String} {l : List Line} {is : List Item} : ws ≠ [] → (∀ w ∈ ws, Plain w.toList) → Shows l is →
      Shows (.stmt ws :: l) (.stmt (wordsOf ws) :: is)
  | block {ws : List String} {body rest : List Line} {is js : List Item} : ws ≠ [] → (∀ w ∈ ws, Plain w.toList) → Shows body is →
      Shows rest js → Shows (.opens ws :: (body ++ .closes :: rest)) (.block (wordsOf ws) is :: js)

/-- A policy with one action and plain words. -/
structure PlainPolicy (q : SPolicy) : Prop where
  name : Plain q.name
  src : ∀ l, q.src = some l → ∀ w ∈ l, Plain w.toList
  dst : ∀ l, q.dst = some l → ∀ w ∈ l, Plain w.toList
  app : ∀ a, q.app = some a → Plain (a ++ "-app".toList)
  lists : ∀ l ∈ [q.dscp, q.dscpExcept, q.fromZones, q.toZones], ∀ w ∈ l, Plain w.toList
  act : ∃ t, q.thens = [t] ∧ Plain t.action.toList ∧ (∀ v, t.vpn = some v → Plain v.1.toList ∧ (v.2 = "" ∨ Plain v.2.toList)) ∧
    (∀ s, t.dscpSet = some s → Plain s.toList) ∧ ∀ s ∈ t.logs, Plain s.toList

/-- A filter with plain words; no comment has the end of a comment in it. -/
structure PlainBlock (b : BlockText) : Prop where
  zones : Plain b.fromZone.toList ∧ Plain b.toZone.toList
  groups : ∀ w ∈ b.groups ++ b.groupsExcept, Plain w.toList
  comments : ∀ c ∈ b.comments, Quiet c
  policies : ∀ x ∈ b.policies, PlainPolicy x.policy ∧ (∀ c ∈ x.comments, Quiet c) ∧ ∀ o, x.owner = some o → Quiet o

/-- An address book with plain words. -/
structure PlainBook (text : Net → String) (b : Book) : Prop where
  zone : ∀ z, b.zone = some z → Plain z.toList
  addresses : ∀ a ∈ b.addresses, Plain a.1.toList ∧ Plain (text a.2).toList
  sets : ∀ s ∈ b.sets, Plain s.1.toList ∧ ∀ m ∈ s.2, Plain m.toList

/-- An application with plain words and without exactly eight ICMP terms. -/
structure PlainApp (a : App) : Prop where
  name : Plain a.name
  protos : ∀ p ∈ a.protos, Plain p.text.toList
  terms : a.protos.length * a.types.length ≠ 8

end Verif.Spec.SrxRead
