import Verif.Lemmas.Repr
import Verif.Model.Print
import Verif.Props.Shapes
import Verif.Props.Lists
import Verif.Props.ColorFuncs
import Verif.Props.Style
import Mathlib.Tactic.IntervalCases

/-!
# Lemmas about printed values
-/

namespace Colosseum

/-! ## The characters of a printed float -/

theorem digit_floatText {c : Char} (h : isDigit c = true) :
    c ∈ ['0', '1', '2', '3', '4', '5', '6', '7', '8', '9', '.', 'e', '+', '-'] := by
  have h' : 48 ≤ c.toNat ∧ c.toNat ≤ 57 := by simpa [isDigit] using h
  have e : c = Char.ofNat c.toNat := (Char.ofNat_toNat c).symm
  rw [e]
  obtain ⟨h1, h2⟩ := h'
  interval_cases c.toNat <;> decide

theorem FloatText.append {a b : PyStr} (ha : FloatText a) (hb : FloatText b) : FloatText (a ++ b) := by
  intro c hc
  rcases List.mem_append.1 hc with h | h
  · exact ha c h
  · exact hb c h

theorem FloatText.cons {c : Char} {a : PyStr} (hc : c ∈ ['0', '1', '2', '3', '4', '5', '6', '7', '8', '9', '.', 'e', '+', '-'])
    (ha : FloatText a) : FloatText (c :: a) := by
  intro x hx
  rcases List.mem_cons.1 hx with rfl | h
  · exact hc
  · exact ha x h

theorem FloatText.digits {d : PyStr} (h : d.all isDigit = true) : FloatText d := fun c hc => digit_floatText (List.all_eq_true.1 h c hc)

theorem FloatText.sub {a b : PyStr} (h : ∀ c ∈ a, c ∈ b) (hb : FloatText b) : FloatText a := fun c hc => hb c (h c hc)

theorem expStr_chars (e : Int) : FloatText (expStr e) := by
  unfold expStr
  refine .cons (by split <;> decide) ?_
  split
  · exact .cons (by decide) (.digits (natStr_all _))
  · exact .digits (natStr_all _)

theorem formatShort_chars {d : PyStr} (h : d.all isDigit = true) (p : Int) : FloatText (formatShort d p) := by
  have hd := FloatText.digits h
  have hz : ∀ n, FloatText (List.replicate n '0') := fun n => .digits (zeros_all n)
  unfold formatShort
  split
  · split
    · intro c hc; cases hc
    · rename_i c
      exact .cons (hd _ (by simp)) (.cons (by decide) (expStr_chars _))
    · rename_i c r _
      exact .cons (hd _ (by simp)) (.cons (by decide) (.append (hd.sub (by simp +contextual)) (.cons (by decide) (expStr_chars _))))
  · split
    · exact .cons (by decide) (.cons (by decide) (.append (hz _) hd))
    · split
      · exact .append (.append hd (hz _)) (by unfold FloatText; decide)
      · exact .append (hd.sub fun c hc => List.mem_of_mem_take hc) (.cons (by decide) (hd.sub fun c hc => List.mem_of_mem_drop hc))

theorem dropZeros_digits {s : PyStr} (h : s.all isDigit = true) : (dropZeros s).all isDigit = true := by
  obtain ⟨z, hz⟩ := dropZeros_spec s
  rw [List.all_eq_true] at h ⊢
  intro c hc
  exact h c (by rw [hz]; exact List.mem_append_left _ hc)

theorem pyRepr_chars (fp : FP) (q : Rat) : FloatText (pyRepr fp q) := by
  have hp : ∀ q, FloatText (reprPos fp q) := fun q => formatShort_chars (dropZeros_digits (natStr_all _)) _
  unfold pyRepr
  split
  · unfold FloatText; decide
  · split
    · exact .cons (by decide) (hp _)
    · exact hp _

theorem formatShort_point {d : PyStr} (hne : d ≠ []) (p : Int) : '.' ∈ formatShort d p ∨ 'e' ∈ formatShort d p := by
  unfold formatShort
  split
  · split
    · exact absurd rfl hne
    · right; simp
    · right; simp
  · left
    split
    · simp
    · split <;> simp

theorem pyRepr_point {q : Rat} (hf : round53 q = q) : '.' ∈ pyRepr .b64 q ∨ 'e' ∈ pyRepr .b64 q := by
  have hp : ∀ q : Rat, 0 < q → round53 q = q → '.' ∈ reprPos .b64 q ∨ 'e' ∈ reprPos .b64 q := by
    intro q hq hf
    refine formatShort_point ?_ _
    intro h0
    have h := shortest_reads hq hf 16 1 rfl
    obtain ⟨z, hz⟩ := dropZeros_spec (natStr (shortest .b64 q 16 1).1.natAbs)
    have hv := natStr_val (shortest .b64 q 16 1).1.natAbs
    rw [hz, h0, List.nil_append, digitsVal_zeros] at hv
    have hm : (shortest .b64 q 16 1).1 = 0 := by omega
    rw [hm] at h
    simp [round53_zero] at h
    exact absurd h (ne_of_lt hq)
  unfold pyRepr
  split
  · left; decide
  · split
    · rename_i h0 hn
      rcases hp (-q) (by linarith) (by rw [round53_neg, hf]) with h | h
      · exact Or.inl (List.mem_cons_of_mem _ h)
      · exact Or.inr (List.mem_cons_of_mem _ h)
    · rename_i h0 hn
      exact hp q (lt_of_le_of_ne (not_lt.1 hn) (Ne.symm h0)) hf

theorem DigitPart.no_point {s : PyStr} {ds : List Nat} (h : DigitPart s ds) : '.' ∉ s ∧ 'e' ∉ s := by
  constructor <;> intro hc <;> rcases h.chars _ hc with h | h <;> revert h <;> decide

theorem Blanks.no_point {b : PyStr} (h : Blanks b) : '.' ∉ b ∧ 'e' ∉ b := by
  constructor <;> intro hc <;> have := h.spaceC _ hc <;> revert this <;> decide

theorem SignText.no_point {g : PyStr} {neg : Bool} (h : SignText g neg) : '.' ∉ g ∧ 'e' ∉ g := by
  cases h <;> decide

theorem IntLit.no_point {s : PyStr} {i : Int} (h : IntLit s i) : '.' ∉ s ∧ 'e' ∉ s := by
  obtain ⟨b, g, m, b', neg, ds, hb, hb', hg, hm, rfl, _⟩ := h
  simp only [List.mem_append, not_or]
  exact ⟨⟨⟨hb.no_point.1, hg.no_point.1, hm.no_point.1⟩, hb'.no_point.1⟩, ⟨hb.no_point.2, hg.no_point.2, hm.no_point.2⟩, hb'.no_point.2⟩

theorem PctLit.no_point {s : PyStr} {i : Int} (h : PctLit s i) : '.' ∉ s ∧ 'e' ∉ s := by
  obtain ⟨b, g, m, u, b', neg, ds, k, hb, hb', hu, hg, hm, rfl, _⟩ := h
  have hw : ∀ b, WhiteSpace b → '.' ∉ b ∧ 'e' ∉ b := by
    intro b hb
    constructor <;> intro h <;> exact absurd (hb _ h) (by decide)
  simp only [List.mem_append, not_or, List.mem_replicate, not_and]
  exact ⟨⟨⟨⟨⟨(hw _ hb).1, hg.no_point.1, hm.no_point.1⟩, hu.no_point.1⟩, fun _ => by decide⟩, (hw _ hb').1⟩,
    ⟨⟨⟨⟨(hw _ hb).2, hg.no_point.2, hm.no_point.2⟩, hu.no_point.2⟩, fun _ => by decide⟩, (hw _ hb').2⟩⟩

/-! ## Units -/

theorem printable_b64 {n : Num} (h : FP.b64.rnd n.val = n.val) : Printable .b64 (pyRepr .b64) n := by
  refine ⟨h, ?_⟩
  rintro q rfl
  exact ⟨pyRepr_reads h, pyRepr_chars _ _⟩

/-! ## Lists of words -/

theorem words_intercalate (ws : List PyStr) (h : ∀ w ∈ ws, NoBlank w ∧ w ≠ []) : Words (List.intercalate (lit " ") ws) ws := by
  have nb : AllBlank [] := by simp [AllBlank]
  have sp : AllBlank (lit " ") := by unfold AllBlank; decide
  induction ws with
  | nil => exact .nil [] nb
  | cons w r ih =>
    have hw := h w (by simp)
    cases r with
    | nil => simpa [List.intercalate] using Words.last [] w [] nb hw.1 hw.2 nb
    | cons w2 r =>
      have := Words.cons [] w (lit " ") _ _ nb hw.1 hw.2 sp (by decide) (ih fun x hx => h x (by simp [hx]))
      simpa [List.intercalate, List.intersperse] using this

/-- `", ".join` is `",".join` of the items with a blank in front. -/
def spaced : List PyStr → List PyStr
  | [] => []
  | x :: xs => x :: xs.map (' ' :: ·)

theorem intercalate_spaced (xs : List PyStr) : List.intercalate (lit ", ") xs = List.intercalate [','] (spaced xs) := by
  cases xs with
  | nil => rfl
  | cons x xs =>
    simp only [spaced]
    induction xs generalizing x with
    | nil => simp [List.intercalate]
    | cons y ys ih =>
      have h1 := ih y
      have hl : lit ", " = [',', ' '] := rfl
      simp only [List.intercalate, hl] at h1 ⊢
      cases ys with
      | nil => simp [List.intersperse]
      | cons z zs =>
        simp only [List.map_cons, List.intersperse, List.flatten_cons] at h1 ⊢
        simp only [List.append_cancel_left_eq] at h1
        simp [h1]

theorem rgb_text (P : Printer) (x y z : Int) (a : PyNum) : P.color (.rgb x y z a) =
          lit "rgba(" ++ (intStr x ++ lit "," ++ (' ' :: intStr y) ++ lit "," ++ (' ' :: intStr z) ++ lit "," ++ (' ' :: P.num a)) ++ lit ")" := by
  have hc : lit ", " = lit "," ++ [' '] := by decide
  unfold Printer.color
  simp only []
  rw [hc]
  generalize lit "," = c
  generalize lit "rgba(" = o
  generalize lit ")" = e
  generalize intStr x = x
  generalize intStr y = y
  generalize intStr z = z
  generalize P.num a = z
  simp

theorem hsl_text (P : Printer) (h s l : Num) (a : PyNum) : P.color (.hsl h s l a) =
    lit "hsla(" ++ (P.num (.fin h) ++ lit "," ++ (' ' :: P.num (.fin s)) ++ lit "," ++ (' ' :: P.num (.fin l)) ++ lit "," ++ (' ' :: P.num a)) ++
      [')'] := by
  have hc : lit ", " = lit "," ++ [' '] := by decide
  have he : lit ")" = [')'] := by decide
  unfold Printer.color
  simp only []
  rw [hc, he]
  generalize lit "," = c
  generalize lit "hsla(" = o
  generalize P.num (.fin h) = x
  generalize P.num (.fin s) = y
  generalize P.num (.fin l) = z
  generalize P.num a = z
  simp

end Colosseum
