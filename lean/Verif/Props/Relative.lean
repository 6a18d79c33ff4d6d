import Verif.Lemmas.Relative
import Verif.Props.Margins
import Verif.Props.Stacks

/-!
# Relatively positioned blocks
-/

namespace Colosseum

/-- C50, vertically: a relatively positioned block takes part in the stack like any other (`flowTops`), and its border box is moved from its place there by
its offsets, and by its top border and padding. `l` and `r` are its specified `top` and `bottom`.
Missing: the border and the padding should not count (`C50_false_double`); offsets in percent; numbers too large for exact sums. -/
theorem C50_top_partial (fp : FP) (d : Display) (html5 : Bool) (p ps : Option CSS) (n n' m : Node) (w : Option Num) (hbx : AllBoxed n)
    (h : layout fp d html5 p n = .ok n') (hm : Within (some d.contentWidth) p n' w ps m) (hh : ¬ m.Hidden) (hc : m.BlockContext) :
    ∃ ks rest xs, m.children = ks ++ rest ∧ (∀ c ∈ ks, c.BlockLevel) ∧ (∀ c ∈ rest, ¬ c.BlockLevel) ∧
      List.Forall₂ (fun c x => ∃ b, c.layout = some b ∧ b.Stands x) ks xs ∧
      ∀ k, fp.Exact ∨ fp.Laws → (∀ x ∈ xs, x.AllFit fp k) → 8 * k * ks.length ≤ 2 ^ 53 →
        List.Forall₂ (fun c t => c.Relative → ∀ l r, (c.style.get .top).Nudge fp d (dummyFont fp) l → (c.style.get .bottom).Nudge fp d (dummyFont fp) r →
          (∀ y, l = some y → Fits fp k y) → (∀ y, r = some y → Fits fp k y) →
          ∃ b, c.layout = some b ∧
            (b.borderBoxTop fp).val = t + b.border.top.val + b.padding.top.val + relativeShift true (l.map Num.val) (r.map Num.val)) ks (flowTops 0 none xs) := by
  obtain ⟨ks, rest, xs, h1, h2, h3, h4, _, h6⟩ := (layout_ranP hbx h hm hh).places (D := nudges fp d) hc hh
    (fun _ _ _ _ _ _ _ _ h hp hb => nudges_follow h hp hb)
  refine ⟨ks, rest, xs, h1, h2, h3, h4, fun k hE hf hk => ?_⟩
  have g := h6 k hE hf hk
  refine List.forall₂_iff_get.2 ⟨g.length_eq, fun i hi hi' hr l r hl hrr fl fr => ?_⟩
  have h4' := List.forall₂_iff_get.1 h4
  obtain ⟨b, hb, hx⟩ := h4'.2 i hi (by rw [← h4'.1]; exact hi)
  refine ⟨b, hb, ?_⟩
  have := (List.forall₂_iff_get.1 g).2 i hi hi' b _ _ hb hx ⟨(isRelative_iff _).2 hr, l, r, hl, hrr, fl, fr, rfl⟩
  obtain ⟨_, e2, e3, _⟩ := hx
  rw [this, e2, e3]
  ring

/-- Three blocks; the second is moved 5 pixels up by `bottom`, the third is where it would be anyway. -/
example : [0, 1, 2].map (fun i => (laidBox .b64 screen (block [] [block [(.height, px 10)] [],
      block [(.height, px 20), (.position, kw "relative"), (.bottom, px 5)] [], block [(.height, px 30)] []]) [i]).map (fun b => b.borderBoxTop .b64)) =
    [some (.int 0), some (.int 5), some (.int 30)] := by decide +kernel

/-- Without any offsets, `position: relative` should make no difference; but a block with a border is moved. -/
theorem C50_false_double : (laidBox .b64 screen (block [] [block [(.height, px 10), (.borderWidth .top, px 3)] []]) [0]).map (fun b => b.borderBoxTop .b64) = some (.int 0) ∧
    (laidBox .b64 screen (block [] [block [(.position, kw "relative"), (.height, px 10), (.borderWidth .top, px 3)] []]) [0]).map (fun b => b.borderBoxTop .b64) = some (.int 3) := by
  decide +kernel

end Colosseum
