import Verif.Props.CasesTexts
import Verif.Props.CasesChanges
import Verif.Props.CasesFlow
import Verif.Props.CasesSessions
import Verif.Props.Tutorial
import Verif.Props.Copy
import Verif.Props.Notation
import Verif.Props.Sideways
import Verif.Props.Percentages
import Verif.Props.Placed

/-!
# Further instances
-/

namespace Colosseum

/-! ## Values -/

example := C59_within_partial .b64 .int (.int 1) (.int 5) (.str (lit "3")) (.num (.fin (.int 3))) (by rfl) nofun
example := C04_print_parse_partial .exact exact_laws (fun _ => []) (.len .px) (.int 3) rfl nofun
example := C106_rejects .b64 b64_laws (.str (lit "bad")) trivial (.inl rfl)
example := C33_unknown exampleEnv [3] draft (lit "colour") (fun a h => by
  have := sameName_iff.1 h
  revert this
  exact (by decide +kernel : ∀ a ∈ allAttrs, ¬ normName (lit "colour") = normName (cssName a).toList) a (mem_allAttrs a))
example := C69_assign_text_partial exampleEnv rfl ⟨pyRepr .b64, fun _ => true, fun _ => .error .type⟩ rfl [3] draft draft_reachable draft_boxed (.borderWidth .top)
  (.unit ⟨.len .px, .fin (.flt (FP.b64.rnd (1 / 10)))⟩) (Or.inr ⟨_, rfl, _, rfl⟩) (.unit _ ⟨_, rfl, by unfold Num.Binary64; decide +kernel⟩)
example (P : Printer) := C69_false_none exampleEnv P [3] draft draft_boxed .float (by decide)
example := C69_false_hsl exampleEnv ⟨pyRepr .b64, fun _ => true, fun _ => .error .type⟩ rfl [3] draft draft_boxed .color rfl (.heap [0]) (.int 120) (.flt (1 / 2)) (1 / 2)
  (by decide +kernel) (.fin (.int 1))
example := C97_levels exampleEnv draft draft_reachable (.mk draft.css .initial none []) rfl
example := C113_plain .b64 .ieee b64_laws ieee_laws screen (px 12) (Whole.plainTest_sound (by decide +kernel))
example := C73_message ⟨pyRepr .b64, fun _ => true, fun _ => .ok (lit "<object>")⟩ exampleEnv [3] draft .width (.str (lit "bad")) (lit "bad") (lit "<object>") rfl rfl rfl

/-- A declaration with a red border at the top: its text cannot be assigned. -/
def bordered : Decl := Decl.run exampleEnv 0 ⟨CSS.empty, .unbound⟩ [.setAttr (.sh (.borderSide .top)) (.str (lit "solid red"))]

example (P : Printer) (t : PyStr) (r : ShRead) (hr : bordered.css.shorthand (.borderSide .top) = .ok r) (ht : P.read r = .ok t) :=
  C70_false_color exampleEnv P [3] bordered nofun (.borderSide .top) nofun (.borderColor .top) (by simp [partProps]) _ _ rfl r t hr ht

/-! ## Documents -/

theorem short_moderate : short.Moderate .b64 screen 1000 := by
  have h : short.mildTest .b64 screen 1000 = true := by decide +kernel
  have hc : short.count = 4 := by decide +kernel
  refine ⟨fun m hm => (mildTest_all h hm).1, ⟨screen_mild, fun m hm => (mildTest_all h hm).2⟩, by norm_num, ?_, ?_⟩ <;> rw [hc] <;> norm_num

example := C80_later .b64 b64_laws screen 1000 false none short long _ _ _ short_moderate long_boxed short_upTo short_laid long_laid .v
  ((laidBox .b64 screen short [1, 0]).getD .fresh) ((laidBox .b64 screen long [1, 0]).getD .fresh) (by decide +kernel) (by decide +kernel)

/-- No element has a size of its own. -/
def Node.bareTest : Node → Bool
  | .mk _ z _ cs => z.width.isNone && z.height.isNone && z.ratio.isNone && bareTests cs
where
  bareTests : List Node → Bool
    | [] => true
    | c :: cs => c.bareTest && bareTests cs

theorem bareTests_mem {cs : List Node} (h : Node.bareTest.bareTests cs = true) {c : Node} (hc : c ∈ cs) : c.bareTest = true := by
  induction cs with
  | nil => cases hc
  | cons x cs ih =>
    simp only [Node.bareTest.bareTests, Bool.and_eq_true] at h
    rcases List.mem_cons.1 hc with rfl | hc
    · exact h.1
    · exact ih h.2 hc

theorem bareTest_grid {n m : Node} (h : n.bareTest = true) (hm : Visible m n) : m.intrinsic.OnGrid := by
  induction hm with
  | here _ =>
    obtain ⟨s, z, l, cs⟩ := m
    simp only [Node.bareTest, Bool.and_eq_true, Option.isNone_iff_eq_none] at h
    refine ⟨fun x hx => ?_, fun x hx => ?_, h.1.2⟩
    · exact absurd (h.1.1.1.symm.trans hx) nofun
    · exact absurd (h.1.1.2.symm.trans hx) nofun
  | @step c n _ hc _ ih =>
    obtain ⟨s, z, l, cs⟩ := n
    simp only [Node.bareTest, Bool.and_eq_true] at h
    exact ih (bareTests_mem h.2 hc)

theorem screen_grid : screen.OnGrid :=
  ⟨⟨64 * 640, by norm_num [screen, Num.val]⟩, ⟨64 * 480, by norm_num [screen, Num.val]⟩, ⟨64 * 1, by norm_num [screen, Num.val]⟩,
    ⟨64 * 3, by norm_num [screen, Num.val]⟩, ⟨64 * 5, by norm_num [screen, Num.val]⟩⟩

example := C54_grid_partial .b64 b64_laws screen false none short long _ _ _ short_boxed long_boxed short_upTo short_laid long_laid .v screen_grid
  (fun _ hk => bareTest_grid (by decide +kernel) hk) (path_small (k := 1000) (by norm_num) (by decide +kernel)) (by decide)
  ((laidBox .b64 screen short [1, 0]).getD .fresh) ((laidBox .b64 screen long [1, 0]).getD .fresh) (by decide +kernel) (by decide +kernel)

example := C86_direction .b64 screen false none none westward eastward rfl same_undirected
example := C114_exact screen false none Tutorial.tower (fun m hm => (Tutorial.tower_simple m hm).1) (Moved.test_sound (by decide +kernel)) nofun

/-- A value that is stored as it is compares equal to itself. -/
theorem equal_self {p : LH} {v : Val} (h : p.choices.validate exampleEnv [] v = .ok v) (h1 : v.Held .b64) (h2 : ∀ u, v = .unit u → u.kind = .len .px) (h3 : v.pyEq v = true) :
    EqualValues .b64 screen p v v := by
  refine ⟨validate_canonical h, validate_canonical h, h1, h1, fun k n e hk => ?_, h3⟩
  subst e
  cases h2 _ rfl
  exact hk.elim

/-- The width as a whole number and as a `float`. -/
theorem twelve_equal : StyleRel (EqualValues .b64 screen) (styled [(.width, px 12)]) (styled [(.width, .unit ⟨.len .px, .fin (.flt 12)⟩)]) := by
  intro p hp
  by_cases h : p = .width
  · subst h
    exact ⟨Or.inr ⟨.length, rfl, _, rfl⟩, Or.inr ⟨.length, rfl, _, rfl⟩, trivial, by show FP.b64.rnd 12 = 12; decide +kernel,
      fun k n h hk => by cases h; exact hk.elim, by decide +kernel⟩
  · cases p <;> first
      | exact absurd (hp.elim id id) id
      | exact absurd rfl h
      | exact equal_self rfl trivial (fun u e => by cases e <;> rfl) (by rfl)

example := C76_equal_partial .b64 b64_laws screen false none none (.mk (styled [(.width, px 12)]) .initial (some .fresh) []) _ trivial (.mk twelve_equal rfl nofun)

theorem inch_pixel : DocRel (fun _ => SameMeaning .b64 screen96) inchDoc pixelDoc := by
  refine .mk (fun p _ => ?_) rfl ?_
  · by_cases h : p = .width
    · subst h
      exact sameMeaning_at rfl rfl fun _ => by
        show (luScaled .b64 (.fin (.int 1)) (.int 72) (.int 96)).map (pxOfLu .b64) = .ok (pxOfLu .b64 (64 * 96))
        decide +kernel
    · left; cases p <;> first | rfl | exact absurd rfl h
  · intro x hx
    simp only [List.zip_cons_cons, List.zip_nil_right, List.mem_cons, List.not_mem_nil, or_false] at hx
    subst hx
    refine .mk (fun p _ => ?_) rfl (by simp)
    by_cases h : p = .height
    · subst h
      exact sameMeaning_at rfl rfl fun _ => by
        show (luScaled .b64 (.fin (.int 12)) (.int 1) (.int 96)).map (pxOfLu .b64) = .ok (pxOfLu .b64 (64 * 16))
        decide +kernel
    · by_cases h' : p = .margin .left
      · subst h'
        exact sameMeaning_at rfl rfl fun _ => by
          show (luScaled .b64 (.fin (.int 1)) (.int 12) (.int 96)).map (pxOfLu .b64) = .ok (pxOfLu .b64 (64 * 16))
          decide +kernel
      · left
        cases p with
        | margin s => cases s <;> first | rfl | exact absurd rfl h'
        | height => exact absurd rfl h
        | _ => rfl

example := C74_notation .b64 b64_laws screen96 false none none inchDoc pixelDoc trivial inch_pixel

/-- A document whose style is the one of `draft`. -/
def drafted : Node := .mk draft.css .initial (some .fresh) []

example := C76_ignored_partial .b64 b64_laws screen false none exampleEnv [6] drafted drafted [] (.margin .top) (.num (.fin (.int 7))) (.unit ⟨.len .px, .fin (.int 7)⟩) rfl
  (fun p v h => C24_canonical exampleEnv draft draft_reachable p v h) rfl (by decide +kernel) trivial trivial (fun k n e hk => by cases e; exact hk.elim)
example := C101_layout exampleEnv b64_laws screen false none drafted drafted [] rfl _ draft_reachable [6] allLH mem_allLH .unbound _ (Prod.ext rfl (by rfl))

theorem nest_session (E : Env) : Session E .h nest :=
  .start _ fun _ hm _ _ hc => C40_new E.fp .h _ fun k hk => nest_fresh k (sub_trans hk (sub_trans (.child hc (.refl _)) hm))

/-- The second block is hidden, the document laid out, the block shown again, and another one added. -/
def lively : Node :=
  ((runLayout .b64 screen false none (nest.doAt exampleEnv [0] (.setStyle [] (.lh .display) .none))).1.doAt exampleEnv [0] (.setStyle [] (.lh .display) (kw "block"))).atPath
    (Node.addChild 0 (block [(.height, px 9)] [])) []

theorem lively_session : Session exampleEnv .h lively :=
  .insert [] 0 (block [(.height, px 9)] []) (.edit [0] _ (.laid screen false none (.edit [0] _ (nest_session _) trivial)) trivial) (by decide +kernel)
    (eachBox_every (by decide +kernel))

example := C49_session_partial exampleEnv .h lively _ lively_session screen false none (laidDoc_ok (by decide +kernel))

end Colosseum
