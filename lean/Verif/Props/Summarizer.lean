import Verif.Lemmas.Summarizer
import Verif.Props.Nacaddr

/-!
Property theorems C11, C12: capirca/lib/summarizer.py.
-/

namespace Verif.Props
open Verif Verif.Spec Verif.Nacaddr Verif.Summarizer

/-- C11: for every list of networks of one family, an address matches one of the summaries
(`address & mask == network`) exactly when it belongs to an input network. -/
theorem C11_summarize_exact (l : List Net) (v : Ver) (hl : ∀ n ∈ l, WF n) (hv : ∀ n ∈ l, n.ver = v)
    (x : Nat) (hx : x < 2 ^ v.bits) :
    (∃ d ∈ summarize l, x &&& d.netmask = d.address) ↔ Den l v x :=
  (summarize_spec dwf_closed (fun _ h => h) l v hl hv (fun _ w _ => toDSM_dwf w)).2 x hx

/-- Four networks summarised into one discontiguous network. -/
example : (∀ n ∈ [ip4 10 0 0 0 24, ip4 10 0 2 0 24, ip4 11 0 0 0 24, ip4 11 0 2 0 24], WF n) ∧
    summarize [ip4 10 0 0 0 24, ip4 10 0 2 0 24, ip4 11 0 0 0 24, ip4 11 0 2 0 24] =
      [{ address := 10 * 2 ^ 24, netmask := 0xfefffd00 }] := by
  decide +kernel

/-- C12 (partial): if all input addresses lie in one half of the IPv4 address space, every summary
can be rendered (in the three forms used by the generators) and the rendering determines address
and mask. Missing: inputs in both halves, where the claim is false. -/
theorem C12_rendering_partial (l : List Net) (hl : ∀ n ∈ l, WF n) (hv : ∀ n ∈ l, n.ver = .v4) (b : Bool)
    (hhalf : ∀ x, Den l .v4 x → (2 ^ 31 ≤ x ↔ b = true)) :
    ∀ d ∈ summarize l,
      (∀ nondsm, ∃ a m, toDottedQuad d false nondsm = .ok (a, m) ∧ MaskText.value a = d.address ∧
        MaskText.value m = d.netmask) ∧
      (∃ a m, toDottedQuad d true false = .ok (a, m) ∧ MaskText.value a = d.address ∧
        MaskText.value m = 2 ^ 32 - 1 - d.netmask) := by
  intro d hd
  have h := (summarize_spec (half_closed b) (fun _ h => h.1) l .v4 hl hv (by
    intro n w hsub
    have hv4 : n.ver = .v4 := by
      obtain ⟨m, hm, hx⟩ := hsub _ _ mem_self
      rw [← hx.1]; exact hv m hm
    exact half_toDSM w hv4 b (fun x hx => hhalf x (hsub _ _ hx)))).1 d hd
  have hm := h.2.1
  have ha : d.address < 2 ^ 32 := by
    have := h.1
    unfold DWF at this
    rw [← this]
    exact Nat.lt_of_le_of_lt Nat.and_le_right hm
  exact toDottedQuad_ok d ha hm (fun h0 => (h.2.2 h0).1)

/-- C12 refuted: `1.0.0.0/8, 129.0.0.0/8` are merged over the top bit and cannot be rendered. -/
theorem C12_refuted :
    ∃ l : List Net, (∀ n ∈ l, WF n ∧ n.ver = .v4) ∧
      ∃ d ∈ summarize l, toDottedQuad d = .error .valueError :=
  ⟨[ip4 1 0 0 0 8, ip4 129 0 0 0 8], by decide, { address := 2 ^ 24, netmask := 0x7f000000 },
    by decide +kernel, by decide +kernel⟩

example : toDottedQuad { address := 10 * 2 ^ 24, netmask := 0xfefffd00 } true false =
    .ok (.quad 10 0 0 0, .quad 1 0 2 255) := by decide +kernel
example : toDottedQuad { address := 10 * 2 ^ 24, netmask := 0xfffffe00 } false true =
    .ok (.quad 10 0 0 0, .plen 23) := by decide +kernel

end Verif.Props
