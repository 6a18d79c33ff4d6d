import Verif.Lemmas.Progress
import Verif.Lemmas.Sample

/-!
# Documents made of blocks (C52)
-/

namespace Colosseum

/-- C52. A document in which every element is a block that is neither floated nor absolutely positioned nor replaced, with finite lengths
(of any unit, percentages and negative ones included) and any keywords, is laid out without any exception, in every arithmetic and whatever
the size of the display. Relative positioning is allowed below the root. `p` is the style of the parent of the root, if there is one. -/
theorem C52_blocks_partial (fp : FP) (d : Display) (html5 : Bool) (p : Option CSS) (n : Node) (hbx : AllBoxed n)
    (h : ∀ m, Occurs m n → m.PlainBlock) (hp : ∀ q, p = some q → q.get .height = kw "auto" ∨ (q.get .height).Finite) :
    ∃ n', layout fp d html5 p n = .ok n' := by
  have hn : ¬ n.Hidden := (plain_style (h n (.here n))).2.2.2
  obtain ⟨b, hb⟩ : ∃ b, n.layout = some b := by
    obtain ⟨s, z, l, cs⟩ := n
    exact Option.ne_none_iff_exists'.1 (allBoxed_mk.1 hbx hn).1
  have e := strip_reset fp n
  obtain ⟨s, z, b', ks, v, h1, _⟩ := layoutBox_progress fp d n.depth (n.reset fp) p (.viewport d) d.contentWidth d.contentHeight
    (by rw [depth_same e]) (pristine_reset fp hbx) (plainDoc_strip e.symm h) rfl rfl hp
  unfold layout
  rw [hb]
  simp only [h1, finishRoot]
  exact ⟨_, rfl⟩

/-- A document with percentages, negative margins, automatic and limited sizes, borders and a relatively positioned block. -/
def allBlocks : Node :=
  block [(.width, pct 50), (.margin .left, kw "auto"), (.minHeight, px 7)] [
    block [(.height, pct 20), (.maxHeight, px 30), (.margin .top, px (-4)), (.borderWidth .top, kw "thick"), (.padding .left, pct 10)] [],
    node [(.display, kw "list-item"), (.position, kw "relative"), (.left, px 3), (.bottom, pct 5)] [
      block [(.width, px 900), (.maxWidth, pct 80)] [], block [(.borderWidth .left, px 2)] []]]

/-- A test for finite lengths. -/
def Val.finiteTest : Val → Bool
  | .unit ⟨.len _, .fin _⟩ => true
  | _ => false

theorem finiteTest_sound {v : Val} (h : v.finiteTest = true) : v.Finite := by
  unfold Val.finiteTest at h
  split at h
  · exact ⟨_, _, rfl⟩
  · cases h

/-- A test for plain styles. -/
def CSS.plainTest (s : CSS) : Bool :=
  (s.get .float).isNone &&
  ((s.get .position).isKw "static" || (s.get .position).isKw "relative" &&
    [LH.top, LH.right, LH.bottom, LH.left].all fun o => (s.get o).isKw "auto" || (s.get o).finiteTest) &&
  [LH.width, .height, .minWidth, .minHeight, .margin .top, .margin .right, .margin .bottom, .margin .left].all (fun o =>
    (s.get o).isKw "auto" || (s.get o).finiteTest) &&
  [LH.maxWidth, .maxHeight].all (fun o => (s.get o).isNone || (s.get o).finiteTest) &&
  [Side.top, .right, .bottom, .left].all (fun t => (s.get (.padding t)).finiteTest &&
    ((s.get (.borderWidth t)).isKw "thin" || (s.get (.borderWidth t)).isKw "medium" || (s.get (.borderWidth t)).isKw "thick" ||
      (s.get (.borderWidth t)).finiteTest))

theorem isNone_eq {v : Val} (h : v.isNone = true) : v = .none := by
  cases v <;> first | rfl | cases h

theorem plainTest_sound {s : CSS} (h : s.plainTest = true) : s.Plain := by
  simp only [CSS.plainTest, Bool.and_eq_true, Bool.or_eq_true, List.all_cons, List.all_nil, isKw_iff] at h
  obtain ⟨⟨⟨⟨h1, h2⟩, h3⟩, h4⟩, h5⟩ := h
  have au : ∀ {v : Val}, v = kw "auto" ∨ v.finiteTest = true → v = kw "auto" ∨ v.Finite := fun h => h.imp id finiteTest_sound
  have nn : ∀ {v : Val}, v.isNone = true ∨ v.finiteTest = true → v = .none ∨ v.Finite := fun h => h.imp isNone_eq finiteTest_sound
  have bd : ∀ {v : Val}, ((v = kw "thin" ∨ v = kw "medium") ∨ v = kw "thick") ∨ v.finiteTest = true →
      v = kw "thin" ∨ v = kw "medium" ∨ v = kw "thick" ∨ v.Finite := by
    rintro v (((h | h) | h) | h)
    · exact Or.inl h
    · exact Or.inr (Or.inl h)
    · exact Or.inr (Or.inr (Or.inl h))
    · exact Or.inr (Or.inr (Or.inr (finiteTest_sound h)))
  have kn : ∀ {a b : String}, lit a ≠ lit b → kw a ≠ kw b := fun hab e => hab (by simpa only [kw, Val.str.injEq] using e)
  refine ⟨⟨?_, au h3.1, au h3.2.1, au h3.2.2.1, au h3.2.2.2.1, nn h4.1, nn h4.2.1, ?_, ?_, ?_⟩, isNone_eq h1, ?_⟩
  · intro hr o ho
    simp only [List.mem_cons, List.not_mem_nil, or_false] at ho
    rcases h2 with h | h
    · rw [h] at hr
      exact absurd hr (kn (by decide))
    obtain ⟨_, q1, q2, q3, q4, _⟩ := h
    rcases ho with rfl | rfl | rfl | rfl
    exacts [au q1, au q2, au q3, au q4]
  · rintro (_ | _ | _ | _)
    exacts [au h3.2.2.2.2.1, au h3.2.2.2.2.2.1, au h3.2.2.2.2.2.2.1, au h3.2.2.2.2.2.2.2.1]
  · rintro (_ | _ | _ | _)
    exacts [bd h5.1.2, bd h5.2.1.2, bd h5.2.2.1.2, bd h5.2.2.2.1.2]
  · rintro (_ | _ | _ | _)
    exacts [finiteTest_sound h5.1.1, finiteTest_sound h5.2.1.1, finiteTest_sound h5.2.2.1.1, finiteTest_sound h5.2.2.2.1.1]
  · rcases h2 with h | ⟨h, _⟩ <;> rw [h] <;> exact ⟨kn (by decide), kn (by decide)⟩

mutual
/-- A test for documents of plain blocks, and whether they have boxes. -/
def Node.plainTest (boxes : Bool) : Node → Bool
  | .mk s z l cs => isBlockLevel s && !z.isReplaced && s.plainTest && (l.isSome || !boxes) && plainTests boxes cs
/-- The test for lists. -/
def plainTests (boxes : Bool) : List Node → Bool
  | [] => true
  | c :: cs => c.plainTest boxes && plainTests boxes cs
end

theorem plainTests_mem {q : Bool} {cs : List Node} (h : plainTests q cs = true) {c : Node} (hc : c ∈ cs) : c.plainTest q = true := by
  induction cs with
  | nil => cases hc
  | cons x cs ih =>
    simp only [plainTests, Bool.and_eq_true] at h
    rcases List.mem_cons.1 hc with rfl | hc
    · exact h.1
    · exact ih h.2 hc

theorem plainTest_all {q : Bool} {n m : Node} (h : n.plainTest q = true) (ho : Occurs m n) : m.PlainBlock ∧ (q = true → m.layout ≠ none) := by
  induction ho with
  | here =>
    obtain ⟨s, z, l, cs⟩ := m
    simp only [Node.plainTest, Bool.and_eq_true, Bool.not_eq_true'] at h
    refine ⟨⟨(blockLevel_iff _).1 h.1.1.1.1, h.1.1.1.2, plainTest_sound h.1.1.2⟩, fun hq e => ?_⟩
    have : l = none := e
    rw [this, hq] at h
    exact absurd h.1.2 (by simp)
  | @step c n hc _ ih =>
    obtain ⟨s, z, l, cs⟩ := n
    simp only [Node.plainTest, Bool.and_eq_true] at h
    exact ih (plainTests_mem h.2 hc)

theorem visible_occurs {n m : Node} (h : Visible m n) : Occurs m n := by
  induction h with
  | here _ => exact .here _
  | step _ hc _ ih => exact .step hc ih

/-- Every element of this document is a plain block, and every one has a box. -/
theorem allBlocks_plain : AllBoxed allBlocks ∧ ∀ m, Occurs m allBlocks → m.PlainBlock := by
  have h : allBlocks.plainTest true = true := by decide +kernel
  exact ⟨fun m hm => (plainTest_all h (visible_occurs hm)).2 rfl, fun m hm => (plainTest_all h hm).1⟩

/-- The widths and heights that the layout gives, the root's first. -/
example : [[], [0], [1], [1, 0], [1, 1]].map (fun p => (laidBox .b64 screen allBlocks p).map (fun b => (b.contentWidth, b.contentHeight))) = [
    some (some (.int 320), some (.int 5)), some (some (.int 320), some (.int 0)), some (some (.int 320), some (.int 0)),
    some (some (.int 256), some (.int 0)), some (some (.int 318), some (.int 0))] := by
  decide +kernel

/-- The box of an inline element without an intrinsic height after a layout. -/
def staleBox : Box :=
  (laidBox .b64 screen (block [(.height, px 50)] [node [] [node [] []]]) [0, 0]).getD .fresh

/-- The parent of that element has then been hidden and has lost its box; now both are blocks, and there is a block inside the second with
a percentage as a margin. -/
def staleBlocks : Node :=
  block [] [.mk (styled [(.display, kw "block")]) .initial none [.mk (styled [(.display, kw "block")]) .initial (some staleBox) [
    block [(.margin .top, pct 10)] []]]]

/-- C52 does not hold for every document of plain blocks: the reset before a layout does not go below an element without a box, so
that a box there can still have the `None` height of an earlier layout; a percentage of it is a `TypeError`. -/
theorem C52_false_stale : (∀ m, Occurs m staleBlocks → m.PlainBlock) ∧ layout .b64 screen false none staleBlocks = .error .type := by
  have h : staleBlocks.plainTest false = true := by decide +kernel
  refine ⟨fun m hm => (plainTest_all h hm).1, ?_⟩
  have e : (match layout .b64 screen false none staleBlocks with | .error e => some e | .ok _ => none) = some .type := by decide +kernel
  cases hl : layout .b64 screen false none staleBlocks with
  | ok n => rw [hl] at e; cases e
  | error e' => rw [hl] at e; exact congrArg _ (Option.some.inj e)

end Colosseum
