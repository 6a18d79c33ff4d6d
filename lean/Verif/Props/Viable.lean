import Verif.Lemmas.Viable
import Verif.Props.Blocks

/-!
# C78: which documents can be laid out
-/

namespace Colosseum

/-- C78. If a layout succeeds, then the root is not hidden, and whatever the layout came to and is not hidden is something that the engine can
lay out. -/
theorem C78_needed (fp : FP) (d : Display) (html5 : Bool) (p : Option CSS) (n n' : Node) (h : layout fp d html5 p n = .ok n') :
    ¬ n.Hidden ∧ ∀ m, Reached m n → ¬ m.Hidden → m.Viable := layout_viable h

/-- C78. If every element has a box, all sizes are finite lengths or the keywords of the properties, and the sizes of the content of inline elements
are known, then that is also enough, in every arithmetic and for every display: a layout raises an exception exactly if the root is
hidden, or it comes to something that the engine cannot lay out. -/
theorem C78_exactly (fp : FP) (d : Display) (html5 : Bool) (p : Option CSS) (n : Node) (hbx : ∀ m, Occurs m n → m.layout ≠ none)
    (hs : ∀ m, Reached m n → ¬ m.Hidden → m.style.Sized ∧ m.Known) (hp : ∀ q, p = some q → q.get .height = kw "auto" ∨ (q.get .height).Finite) :
    (∃ n', layout fp d html5 p n = .ok n') ↔ ¬ n.Hidden ∧ ∀ m, Reached m n → ¬ m.Hidden → m.Viable := by
  constructor
  · rintro ⟨n', h⟩
    exact layout_viable h
  · rintro ⟨h1, h2⟩
    exact layout_ready hbx hp h1 fun m hm hh => ⟨(hs m hm hh).1, (hs m hm hh).2, h2 m hm hh⟩

/-- A test for styles with ordinary sizes. -/
def CSS.sizedTest (s : CSS) : Bool :=
  (!isRelative s || [LH.top, LH.right, LH.bottom, LH.left].all fun o => (s.get o).isKw "auto" || (s.get o).finiteTest) &&
  [LH.width, .height, .minWidth, .minHeight, .margin .top, .margin .right, .margin .bottom, .margin .left].all (fun o =>
    (s.get o).isKw "auto" || (s.get o).finiteTest) &&
  [LH.maxWidth, .maxHeight].all (fun o => (s.get o).isNone || (s.get o).finiteTest) &&
  [Side.top, .right, .bottom, .left].all (fun t => (s.get (.padding t)).finiteTest &&
    ((s.get (.borderWidth t)).isKw "thin" || (s.get (.borderWidth t)).isKw "medium" || (s.get (.borderWidth t)).isKw "thick" ||
      (s.get (.borderWidth t)).finiteTest))

theorem sizedTest_sound {s : CSS} (h : s.sizedTest = true) : s.Sized := by
  simp only [CSS.sizedTest, Bool.and_eq_true, Bool.or_eq_true, List.all_cons, List.all_nil, isKw_iff] at h
  obtain ⟨⟨⟨h2, h3⟩, h4⟩, h5⟩ := h
  have au : ∀ {v : Val}, v = kw "auto" ∨ v.finiteTest = true → v = kw "auto" ∨ v.Finite := fun h => h.imp id finiteTest_sound
  have nn : ∀ {v : Val}, v.isNone = true ∨ v.finiteTest = true → v = .none ∨ v.Finite := fun h => h.imp isNone_eq finiteTest_sound
  have bd : ∀ {v : Val}, ((v = kw "thin" ∨ v = kw "medium") ∨ v = kw "thick") ∨ v.finiteTest = true →
      v = kw "thin" ∨ v = kw "medium" ∨ v = kw "thick" ∨ v.Finite := by
    rintro v (((h | h) | h) | h)
    · exact Or.inl h
    · exact Or.inr (Or.inl h)
    · exact Or.inr (Or.inr (Or.inl h))
    · exact Or.inr (Or.inr (Or.inr (finiteTest_sound h)))
  refine ⟨?_, au h3.1, au h3.2.1, au h3.2.2.1, au h3.2.2.2.1, nn h4.1, nn h4.2.1, ?_, ?_, ?_⟩
  · intro hr o ho
    simp only [List.mem_cons, List.not_mem_nil, or_false] at ho
    rcases h2 with h | h
    · unfold isRelative at h
      rw [(isKw_iff _ _).2 hr] at h
      cases h
    obtain ⟨q1, q2, q3, q4, _⟩ := h
    rcases ho with rfl | rfl | rfl | rfl
    exacts [au q1, au q2, au q3, au q4]
  · rintro (_ | _ | _ | _)
    exacts [au h3.2.2.2.2.1, au h3.2.2.2.2.2.1, au h3.2.2.2.2.2.2.1, au h3.2.2.2.2.2.2.2.1]
  · rintro (_ | _ | _ | _)
    exacts [bd h5.1.2, bd h5.2.1.2, bd h5.2.2.1.2, bd h5.2.2.2.1.2]
  · rintro (_ | _ | _ | _)
    exacts [finiteTest_sound h5.1.1, finiteTest_sound h5.2.1.1, finiteTest_sound h5.2.2.1.1, finiteTest_sound h5.2.2.2.1.1]

mutual
/-- A test for documents in which everything has a box, ordinary sizes and content of known size. -/
def Node.sizedTest : Node → Bool
  | .mk s z l cs => l.isSome && s.sizedTest && (!isInline s || z.isReplaced || z.width.isSome && z.height.isSome) && sizedTests cs
/-- The test for lists. -/
def sizedTests : List Node → Bool
  | [] => true
  | c :: cs => c.sizedTest && sizedTests cs
end

theorem sizedTests_mem {cs : List Node} (h : sizedTests cs = true) {c : Node} (hc : c ∈ cs) : c.sizedTest = true := by
  induction cs with
  | nil => cases hc
  | cons x cs ih =>
    simp only [sizedTests, Bool.and_eq_true] at h
    rcases List.mem_cons.1 hc with rfl | hc
    · exact h.1
    · exact ih h.2 hc

theorem sizedTest_all {n m : Node} (h : n.sizedTest = true) (ho : Occurs m n) : m.layout ≠ none ∧ m.style.Sized ∧ m.Known := by
  induction ho with
  | here =>
    obtain ⟨s, z, l, cs⟩ := m
    simp only [Node.sizedTest, Bool.and_eq_true, Bool.or_eq_true] at h
    obtain ⟨⟨⟨h1, h2⟩, h3⟩, _⟩ := h
    refine ⟨fun e => ?_, sizedTest_sound h2, fun hi hr => ?_⟩
    · have e : l = none := e
      rw [e] at h1
      cases h1
    · have hi : isInline s = true := (isKw_iff _ _).2 hi
      have hr : z.isReplaced = false := hr
      rw [hi, hr] at h3
      rcases h3 with (h3 | h3) | ⟨h3, h4⟩
      · cases h3
      · cases h3
      · constructor
        · intro e
          have e : z.width = none := e
          rw [e] at h3
          cases h3
        · intro e
          have e : z.height = none := e
          rw [e] at h4
          cases h4
  | @step c n hc _ ih =>
    obtain ⟨s, z, l, cs⟩ := n
    simp only [Node.sizedTest, Bool.and_eq_true] at h
    exact ih (sizedTests_mem h.2 hc)

theorem reached_occurs {n m : Node} (h : Reached m n) : Occurs m n := by
  induction h with
  | here => exact .here _
  | step _ hc _ _ ih => exact .step hc ih

/-- Whether the layout of a document that passes the test succeeds. -/
theorem sized_exactly {n : Node} (h : n.sizedTest = true) :
    (layout .b64 screen false none n).isOk = true ↔ ¬ n.Hidden ∧ ∀ m, Reached m n → ¬ m.Hidden → m.Viable := by
  rw [← C78_exactly .b64 screen false none n (fun m hm => (sizedTest_all h hm).1)
    (fun m hm _ => (sizedTest_all h (reached_occurs hm)).2) nofun]
  cases layout .b64 screen false none n with
  | ok n' => exact ⟨fun _ => ⟨n', rfl⟩, fun _ => rfl⟩
  | error e => exact ⟨nofun, nofun⟩

/-- A hidden element with a box. -/
def absent : Node := node [(.display, .none)] []

/-- Blocks, inline elements and a picture, some of them relatively positioned, hidden elements before others, and after the last block something that
floats. -/
def mixture : Node :=
  block [] [
    block [(.width, pct 50), (.margin .left, kw "auto")] [absent, span [(.margin .top, px 3)] 20 10, picture [(.margin .top, kw "auto"), (.position, kw "relative"), (.left, px 7)] 30 40],
    block [(.height, px 8), (.position, kw "relative"), (.top, pct 5)] [span [] 5 5, absent],
    span [(.float, kw "left")] 4 4]

/-- It meets the hypotheses, and the layout succeeds: the floating element is not come to. -/
example : mixture.sizedTest = true ∧ (layout .b64 screen false none mixture).isOk = true := by decide +kernel

/-- Documents that meet the hypotheses, each with one thing that cannot be laid out: something floating, a picture as a block, an automatic top margin of
an inline element, a block after an inline element, and a block without a height whose last child is hidden. -/
def obstacles : List Node :=
  [block [] [block [(.float, kw "left")] []],
   block [] [.mk (styled [(.display, kw "block")]) { Intrinsic.initial with isReplaced := true } (some .fresh) []],
   block [] [span [(.margin .top, kw "auto")] 10 10],
   block [] [block [] [], span [] 10 10, block [] []],
   block [] [block [] [span [] 10 10, absent]]]

example : ∀ n ∈ obstacles, n.sizedTest = true ∧ (layout .b64 screen false none n).isOk = false := by decide +kernel

/-- So they contain something that is not viable. -/
example : ∀ n ∈ obstacles, ¬ n.Hidden → ∃ m, Reached m n ∧ ¬ m.Hidden ∧ ¬ m.Viable := by
  intro n hn hh
  have h : n.sizedTest = true ∧ (layout .b64 screen false none n).isOk = false :=
    (by decide +kernel : ∀ n ∈ obstacles, n.sizedTest = true ∧ (layout .b64 screen false none n).isOk = false) n hn
  by_contra hc
  push Not at hc
  have := (sized_exactly h.1).2 ⟨hh, hc⟩
  rw [h.2] at this
  cases this

end Colosseum
