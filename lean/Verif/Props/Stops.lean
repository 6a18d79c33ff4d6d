import Verif.Lemmas.Refused
import Verif.Props.Viable

/-!
# C85: the exceptions of a layout
-/

namespace Colosseum

/-- C85. If every element has a box, all sizes are finite lengths or the keywords of the properties, and the sizes of the content of inline elements
are known, then a layout raises exactly the exception that the first obstacle in the order of the document calls for (`Stops`), or `AttributeError` if
the root is hidden. -/
theorem C85_exception (fp : FP) (d : Display) (html5 : Bool) (p : Option CSS) (n : Node) (e : Err) (hbx : ∀ m, Occurs m n → m.layout ≠ none)
    (hs : ∀ m, Reached m n → ¬ m.Hidden → m.style.Sized ∧ m.Known) (hp : ∀ q, p = some q → q.get .height = kw "auto" ∨ (q.get .height).Finite) :
    layout fp d html5 p n = .error e ↔ n.Hidden ∧ e = .attribute ∨ Stops n e := by
  have hid : n.Hidden → layout fp d html5 p n = .error .attribute := by
    intro hh
    cases hl : layout fp d html5 p n with
    | ok n' => exact absurd hh (layout_viable hl).1
    | error e' =>
      obtain ⟨b, hb⟩ := Option.ne_none_iff_exists'.1 (hbx n (.here n))
      unfold layout at hl
      rw [hb] at hl
      dsimp only at hl
      have hr : (n.reset fp).Hidden := by rw [← hidden_strip, strip_reset, hidden_strip]; exact hh
      generalize ek : n.reset fp = k at hl hr
      obtain ⟨s, z, l, cs⟩ := k
      cases hd : n.depth with
      | zero => have := depth_pos n; omega
      | succ f =>
        rw [hd, layoutBox_hidden ((hidden_iff s).2 hr)] at hl
        simp only [finishRoot] at hl
        rw [← hl]
  constructor
  · intro h
    by_cases hh : n.Hidden
    · rw [hid hh] at h
      cases h
      exact Or.inl ⟨hh, rfl⟩
    · refine Or.inr ?_
      have hf : ¬ n.Fine := by
        intro hf
        obtain ⟨n', hn'⟩ := (C78_exactly fp d html5 p n hbx hs hp).2 ⟨hh, hf⟩
        rw [hn'] at h
        cases h
      obtain ⟨e', he'⟩ := stops_exists n.depth n le_rfl hf
      have := layout_stops (fp := fp) (d := d) (html5 := html5) hbx hp hs he'
      rw [this] at h
      cases h
      exact he'
  · rintro (⟨hh, rfl⟩ | h)
    · exact hid hh
    · exact layout_stops hbx hp hs h

/-- C85. Hence there is at most one such exception, and it is one of four. -/
theorem C85_unique (n : Node) (e e' : Err) (hbx : ∀ m, Occurs m n → m.layout ≠ none)
    (hs : ∀ m, Reached m n → ¬ m.Hidden → m.style.Sized ∧ m.Known) (h : Stops n e) (h' : Stops n e') :
    e = e' ∧ e ∈ [Err.notImplemented, .generic, .type, .attribute] := by
  have h1 := layout_stops (fp := .exact) (d := screen) (html5 := false) (p := none) hbx nofun hs h
  have h2 := layout_stops (fp := .exact) (d := screen) (html5 := false) (p := none) hbx nofun hs h'
  rw [h1] at h2
  refine ⟨by cases h2; rfl, ?_⟩
  clear h1 h2 h'
  induction h with
  | child h1 h2 h3 h4 h5 ih =>
    refine ih (fun m hm => hbx m (.step (by rw [h2]; simp) hm)) fun m hm hh => hs m (.step h1.shown (by rw [h2]; simp) (fun hb => h4 hb _ (by simp)) hm) hh
  | unsupported => simp
  | foreign => simp
  | early => simp
  | stray => simp
  | late => simp
  | last => simp

/-- C85. Whatever the sizes are, `NotImplementedError` is only raised if the layout comes to something that is not hidden and floats, is absolutely
positioned or fixed, or is a replaced block or an inline block; and `Exception` itself is only raised if it comes to something that is not hidden and
neither an inline element, nor a block, nor an inline block. -/
theorem C85_refused (fp : FP) (d : Display) (html5 : Bool) (p : Option CSS) (n : Node) (e : Err) (h : layout fp d html5 p n = .error e) :
    (e = .notImplemented → ∃ m, Reached m n ∧ ¬ m.Hidden ∧ m.Unsupported) ∧
    (e = .generic → ∃ m, Reached m n ∧ ¬ m.Hidden ∧ m.Foreign ∧ ¬ m.Unsupported) := layout_blames h

/-- Documents that cannot be laid out, and what they raise: obstacles of all kinds, each together with later ones that would raise something else. -/
def failures : List (Node × Err) :=
  [(block [] [block [(.float, kw "left")] [], node [(.display, kw "table-cell")] [], block [] []], .notImplemented),
   (block [] [block [] [span [(.position, kw "fixed")] 1 1]], .notImplemented),
   (block [] [node [(.display, kw "inline-block")] [], span [(.margin .top, kw "auto")] 10 10], .notImplemented),
   (block [] [absent, node [(.display, kw "table-cell")] [], node [(.display, kw "inline-block")] []], .generic),
   (block [] [block [] [span [] 10 10, span [(.margin .top, kw "auto")] 10 10], block [(.float, kw "right")] []], .type),
   (block [] [.mk (styled [(.margin .top, kw "auto"), (.position, kw "relative")]) { Intrinsic.initial with width := some (.int 1), height := some (.int 1) }
      (some .fresh) [block [(.float, kw "right")] []]], .type),
   (block [] [.mk (styled [(.margin .top, kw "auto")]) { Intrinsic.initial with width := some (.int 1), height := some (.int 1) } (some .fresh)
      [block [(.float, kw "right")] []]], .notImplemented),
   (block [] [block [] [], span [(.float, kw "left")] 10 10, block [(.float, kw "left")] []], .attribute),
   (block [] [block [] [span [] 10 10, absent], block [(.float, kw "left")] []], .attribute),
   (absent, .attribute)]

/-- They meet the hypotheses. -/
theorem failures_raise : ∀ x ∈ failures, x.1.sizedTest = true ∧ (match layout .b64 screen false none x.1 with | .error e => e == x.2 | .ok _ => false) = true := by
  decide +kernel

/-- So each of them has a first obstacle that calls for the exception. -/
example : ∀ x ∈ failures, x.1.Hidden ∧ x.2 = .attribute ∨ Stops x.1 x.2 := by
  intro x hx
  obtain ⟨h1, h2⟩ := failures_raise x hx
  refine (C85_exception .b64 screen false none x.1 x.2 (fun m hm => (sizedTest_all h1 hm).1) (fun m hm _ => (sizedTest_all h1 (reached_occurs hm)).2) nofun).1 ?_
  cases hl : layout .b64 screen false none x.1 with
  | ok n' => rw [hl] at h2; cases h2
  | error e =>
    rw [hl] at h2
    have : e = x.2 := by simpa using h2
    rw [this]

end Colosseum
