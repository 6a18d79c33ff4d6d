import Verif.Lemmas.Shown
import Verif.Lemmas.Reach
import Verif.Props.Blocks
import Verif.Props.Style
import Verif.Lemmas.Sample

/-!
# C96, C97: the text of a box and the levels of elements
-/

namespace Colosseum

/-- C96. With Python's floats: the texts of two boxes are the same exactly if they have the same content size and the same absolute position of the
content, each time the same number of the same type. -/
theorem C96_text (P : Printer) (hP : P.reprFloat = pyRepr .b64) (b c : Box)
    (hb : ∀ x, b.contentWidth = some x ∨ b.contentHeight = some x → x.Python) (hc : ∀ x, c.contentWidth = some x ∨ c.contentHeight = some x → x.Python) :
    P.box .b64 b = P.box .b64 c ↔ Box.SameContent .b64 b c := by
  have py : ∀ x y : Num, (x.add .b64 y).Python := by
    intro x y
    have idem : ∀ q, round53 (round53 q) = round53 q := b64_laws.idem
    cases x <;> cases y <;> first | trivial | exact idem _
  constructor
  · intro h
    unfold Printer.box at h
    simp only [List.append_assoc] at h
    have h := List.append_cancel_left h
    obtain ⟨h1, h⟩ := split_unique (c := 'x') (optNum_clean hP _ _ (by decide)) (optNum_clean hP _ _ (by decide)) h
    obtain ⟨h2, h⟩ := split_unique (c := ' ') (optNum_clean hP _ _ (by decide)) (optNum_clean hP _ _ (by decide)) h
    have h := List.append_cancel_left (as := ['@', ' ']) h
    obtain ⟨h3, h⟩ := split_unique (c := ',') (num_clean hP _ _ (by decide)) (num_clean hP _ _ (by decide)) h
    have h4 := List.append_cancel_right (bs := lit ")>") h
    exact ⟨optNum_inj hP (fun a e => hb a (.inl e)) (fun a e => hc a (.inl e)) h1, optNum_inj hP (fun a e => hb a (.inr e)) (fun a e => hc a (.inr e)) h2,
      num_inj hP (py _ _) (py _ _) h3, num_inj hP (py _ _) (py _ _) h4⟩
  · rintro ⟨h1, h2, h3, h4⟩
    unfold Printer.box
    rw [h1, h2, h3, h4]

/-- The text of the box of a block in a document. -/
example : (laidBox .b64 screen (block [(.padding .left, .unit ⟨.len .px, .fin (.flt (5 / 2))⟩)] [block [(.height, px 20)] []]) [0]).map
    (fun b => (Printer.mk (pyRepr .b64) (fun _ => true) (fun _ => .error .type)).box .b64 b) = some "<Box (637.5x20 @ 2.5,0)>".toList := by
  decide +kernel

theorem isNone_iff (v : Val) : v.isNone = true ↔ v = .none := ⟨isNone_eq, fun h => by rw [h]; rfl⟩

/-- A test for the kinds of elements. -/
def Level.test (v : Val) : Level → Bool
  | .hidden => v.isNone
  | .block => v.isKw "block" || v.isKw "list-item" || v.isKw "table"
  | .inline => v.isKw "inline" || v.isKw "inline-table" || v.isKw "inline-block"
  | .part => ["table-row-group", "table-header-group", "table-footer-group", "table-row", "table-column-group", "table-column", "table-cell",
      "table-caption"].any v.isKw
  | .modern => ["flex", "inline-flex", "grid", "inline-grid"].any v.isKw

theorem level_test (v : Val) (l : Level) : l.test v = true ↔ v ∈ l.displays := by
  cases l <;> simp [Level.test, Level.displays, isKw_iff, isNone_iff, or_assoc]

theorem level_one : ∀ v ∈ keywords .display, ∃ l ∈ [Level.hidden, .block, .inline, .part, .modern],
    ∀ l' ∈ [Level.hidden, .block, .inline, .part, .modern], l'.test v = true → l' = l ∧ l.test v = true := by
  decide +kernel

/-- C97. An element whose style was made by assignments is of exactly one kind, and the engine finds the block-level and the inline-level ones. -/
theorem C97_levels (E : Env) (d : Decl) (hd : Reachable E d) (n : Node) (hn : n.style = d.css) :
    (∃ l, n.Is l ∧ ∀ l', n.Is l' → l' = l) ∧ (isBlockLevel n.style = true ↔ n.Is .block) ∧ (isInlineLevel n.style = true ↔ n.Is .inline) := by
  have hk : n.style.get .display ∈ keywords .display := by
    rw [hn]
    unfold CSS.get
    cases h : d.css .display with
    | none => exact List.mem_append_left _ (List.mem_map.2 ⟨"inline", by decide, rfl⟩)
    | some v =>
      rcases canon_reachable hd .display v h with h | ⟨k, h, _⟩
      · exact h
      · cases h
  have all : ∀ l : Level, l ∈ [Level.hidden, .block, .inline, .part, .modern] := by intro l; cases l <;> decide
  refine ⟨?_, level_test _ .block, level_test _ .inline⟩
  obtain ⟨l, _, h⟩ := level_one _ hk
  have some : ∃ l : Level, l.test (n.style.get .display) = true := by
    revert hk
    generalize n.style.get .display = v
    revert v
    have : ∀ v ∈ keywords .display, ∃ l ∈ [Level.hidden, .block, .inline, .part, .modern], l.test v = true := by decide +kernel
    exact fun v hv => (this v hv).imp fun _ => And.right
  obtain ⟨k, hk⟩ := some
  obtain ⟨e, ht⟩ := h k (all k) hk
  exact ⟨l, (level_test _ l).1 ht, fun l' hl' => (h l' (all l') ((level_test _ l').2 hl')).1⟩

/-- C97. A document node lays its children out in lines, unless it is a block container that is not replaced and has a block-level child. -/
theorem C97_contexts (n : Node) : establishesInline n.style n.intrinsic n.children = true ↔ ¬ n.BlockContext := by
  obtain ⟨s, z, l, cs⟩ := n
  rw [← blockContext_iff]
  show establishesInline s z cs = true ↔ _
  simp

/-- C97. No element lays its children out as a table, not even one of `display: table`. -/
theorem C97_tables (n : Node) : establishesTable n = false := rfl

example : (node [(.display, kw "table")] []).Is .block ∧ establishesTable (node [(.display, kw "table")] []) = false :=
  ⟨List.mem_map.2 ⟨"table", by decide, rfl⟩, C97_tables _⟩

/-- The style after `css.display = "inline-table"`. -/
example (E : Env) : ∃ d, Reachable E d ∧ (Node.mk d.css .initial none []).Is .inline :=
  ⟨_, ⟨[.setAttr (.lh .display) (.str (lit "inline-table"))], rfl⟩, List.mem_map.2 ⟨"inline-table", by decide, rfl⟩⟩

/-- A block with a block in it, and one without. -/
example : (block [] [block [] []]).BlockContext ∧ ¬ (block [] [node [] []]).BlockContext := by
  rw [← not_not (a := (block [] [block [] []]).BlockContext), ← C97_contexts, ← C97_contexts]
  decide +kernel

end Colosseum
