import Verif.Lemmas.Edges
import Verif.Props.Heights
import Verif.Props.Relative

/-!
# C55: top and bottom margins in percent
-/

namespace Colosseum

/-- C55 is false for top and bottom margins below the root: in a static parent a percentage is 0, in a relatively positioned block whose height is a length
it refers to this height. -/
theorem C55_false_margin (fp : FP) (S : fp.Sharp) (d : Display) (html5 : Bool) (p : Option CSS) (q : CSS) (n n' m : Node) (w : Option Num) (a : Num) (t : Side)
    (hbx : AllBoxed n) (h : layout fp d html5 p n = .ok n') (hm : Inside true (some d.contentWidth) p n' w (some q) m) (hh : ¬ m.Hidden)
    (ht : t = .top ∨ t = .bottom) (ha : m.style.get (.margin t) = .unit ⟨.len .percent, .fin a⟩) :
    ∃ b y, m.layout = some b ∧ b.margin.get t = .num y ∧ (q.get .position ≠ kw "relative" → y.val = 0) ∧
      (q.get .position = kw "relative" → isBlockLevel q = true → q.get .maxHeight = .none → ∀ x, (q.get .height).Length fp d (dummyFont fp) x →
        PercentOf y a.val x) := by
  obtain ⟨q', cb, e, _, ⟨b, hb, f, b0, cs0, b1, cs1, hbody, hcore, _⟩, h0, hrel⟩ := layout_below hbx h hm hh
  cases e
  obtain ⟨y, y1, y2, _⟩ := body_vertical hbody hcore t ht
  rw [ha] at y1
  obtain ⟨x, rfl, hx⟩ := percent_size y1
  rcases y2 with y2 | ⟨y2, _⟩
  · cases hg : b.margin.get t with
    | auto => rw [hg] at y2; exact y2.elim
    | num z =>
      rw [hg] at y2
      have e : x.val = z.val := y2
      refine ⟨b, z, hb, hg, fun hst => ?_, fun hst hbl hmax y hy => ?_⟩
      · rw [h0 hst] at hx
        rw [← e]
        exact percent_zero S.toLaws (Num.val_int 0) hx
      · rw [hrel hst hbl hmax y hy] at hx
        have := percent_px S hx
        unfold PercentOf at this ⊢
        rw [← e]
        exact this
  · cases y2

/-- Ten percent of the width 640 of a static parent is 0; of a relatively positioned parent 200 pixels high it is 20. -/
example : (laidBox .b64 screen (block [] [block [(.margin .bottom, pct 10)] []]) [0]).map (fun b => b.margin.bottom) = some (.num (.int 0)) ∧
    (laidBox .b64 screen (block [(.position, kw "relative"), (.height, px 200)] [block [(.margin .bottom, pct 10)] []]) [0]).map (fun b => b.margin.bottom) =
      some (.num (.int 20)) := by decide +kernel

end Colosseum
