import Verif.Props.CasesStyle
import Verif.Props.ColorAccept
import Verif.Props.FloatText
import Verif.Props.Shortest
import Verif.Props.FontUnits
import Verif.Props.Ieee
import Verif.Props.Messages
import Verif.Props.Names
import Verif.Props.Print
import Verif.Props.Revalidate
import Verif.Props.Wrapped
import Verif.Props.Whole
import Verif.Props.Shown

/-!
# Instances of the theorems on texts and numbers
-/

namespace Colosseum

/-! ## Numbers -/

example := C83_notation (5 / 2) (by norm_num) (by decide +kernel)
example := C83_minus (-(5 / 2)) (by norm_num)
/-- The float nearest to 0.1: one digit is enough. -/
example := C83_fewest (round53 (1 / 10)) (1 / 10) 1 (by decide +kernel) (by decide +kernel) rfl ⟨1, -1, by decide, by norm_num⟩
example := C83_nearest (round53 (1 / 10)) (by decide +kernel) (by decide +kernel)
example := C83_unit (.len .em) (5 / 4) (5 / 4) 3 (by decide +kernel) (by decide +kernel) (by decide +kernel) ⟨125, -2, by decide, by norm_num⟩

example := C04_binary64_partial (.len .px) (.flt (FP.b64.rnd (1 / 10))) (by unfold Num.Binary64; decide +kernel)
example := C17_binary64_partial (.len .px) (.len .em) (.len .px) (.len .vw) (.int 3) (.flt (5 / 2)) (.flt (FP.b64.rnd (1 / 10))) (.int (-7))
  (by unfold Num.Binary64; decide +kernel) (by unfold Num.Binary64; decide +kernel) (by unfold Num.Binary64; decide +kernel) (by unfold Num.Binary64; decide +kernel)

/-- The number `q` is 0, or its size is between `1 / 2 ^ 20` and `2 ^ 20`. -/
theorem moderate_between {q : Rat} (h : q = 0 ∨ 1 / 2 ^ 20 ≤ |q| ∧ |q| ≤ 2 ^ 20) : Moderate 200 q := by
  rcases h with h | ⟨h1, h2⟩
  · exact .inl h
  · refine .inr ⟨le_trans ?_ h1, le_trans h2 ?_⟩
    · norm_num
    · norm_num

example := C105_moderate .em (.flt (5 / 2)) ⟨screen, dummyFont .b64, some (.int 300)⟩ (moderate_between (by decide +kernel))
  (fun n hn => moderate_between ((by decide +kernel : ∀ n ∈ PxCtx.numbers ⟨screen, dummyFont .b64, some (.int 300)⟩, n.val = 0 ∨ 1 / 2 ^ 20 ≤ |n.val| ∧ |n.val| ≤ 2 ^ 20) n hn))
example := C105_float (5 / 2) ⟨screen, dummyFont .b64, some (.int 300)⟩ (by decide +kernel)
example := C105_errors .percent (.fin (.int 3)) ⟨screen, dummyFont .b64, none⟩ .type (by decide +kernel)
example := C105_every .px (.int 3) ⟨screen, dummyFont .b64, none⟩ (.int 3) (by decide +kernel)

/-! ## Fonts -/

example := C93_em .b64 b64_laws screen96 false none none emDoc (pointDoc (.int (-72))) trivial (instead_margin (Or.inr ⟨.em, .int 72, by simp, rfl, rfl, rfl⟩))
example := C93_ex_ch .exact FP.exact_exact screen96 false none none exDoc (pointDoc (.flt (-(65 / 100) * (Num.int 100).val))) trivial
  (instead_margin (Or.inr ⟨.ex, .int 100, by simp, rfl, Or.inl ⟨rfl, rfl⟩⟩))

/-! ## Colours and names -/

example := C12_only .b64 [4] (lit "red") _ (by decide) rfl
example := C68_exact .b64 [4] (lit "rgb(1, 2, 3)") (.color (.heap [4]) (.rgb 1 2 3 (.fin (.flt 1)))) (.inl (by decide))

example := C33_unambiguous (lit "margin_top") (.lh (.margin .top)) (.lh (.margin .top)) (sameName_iff.2 (by decide)) (sameName_iff.2 (by decide))
example := C62_initial_is_validated exampleEnv [] .display _ rfl

/-! ## Texts of declarations -/

example := C24_copy exampleEnv [7] allLH draft.css .unbound .zIndex _ rfl
example := C36_changes_mark exampleEnv [7] draft (some false) rfl (.setAttr (.lh .width) (.num (.fin (.int 12)))) nofun
example := C36_delete_unset draft .width rfl
example := C57_accepts exampleEnv [7] draft draft_boxed .width (.num (.fin (.int 12)))
example := C57_lengths exampleEnv b64_laws [7] draft draft_boxed .width rfl (.num (.fin (.int 12))) trivial
example := C57_keywords exampleEnv [7] draft draft_reachable draft_boxed .display (lit "flex") nofun
example := C60_order exampleEnv [7] .display _ _ (List.reverse_perm _) (List.reverse_perm _) (.str (lit "flex"))
example := C60_any exampleEnv [7] [kw "a", .none] [.none, kw "a"] [] [] [.length] (.swap _ _ _) .nil
  (fun c hc => by
    simp only [List.mem_cons, List.not_mem_nil, or_false] at hc
    rcases hc with rfl | rfl
    · exact .inr ⟨_, rfl⟩
    · exact .inl rfl) (.str (lit "a"))

/-- A declaration with an outline. -/
def outlined : Decl := Decl.run exampleEnv 0 ⟨CSS.empty, .unbound⟩ [.setAttr (.sh .outline) (.str (lit "solid thick"))]

theorem outlined_reachable : Reachable exampleEnv outlined := ⟨_, rfl⟩

theorem outlined_parts (k : Part) (p : LH) (hp : p ∈ partProps .outline k) (v : Val) (hv : outlined.css p = some v) : v = .str (lit "solid") ∨ v = .str (lit "thick") := by
  cases k <;> simp only [partProps, List.mem_singleton] at hp <;> subst hp <;> cases hv
  · exact .inr rfl
  · exact .inl rfl

example := C70_reads outlined.css .outline nofun
example := C70_equal outlined.css outlined.css .outline nofun _ _ rfl rfl
example (P : Printer) := C70_text P outlined.css .outline nofun (fun v => match v with | .str s => s | _ => [])
  (fun k p hp v hv => by rcases outlined_parts k p hp v hv with rfl | rfl <;> rfl) _ rfl
example (P : Printer) (hP : P.reprFloat = pyRepr .b64) := C70_assign_partial exampleEnv rfl P hP [3] outlined outlined_reachable nofun .outline nofun
  (fun k p hp v hv => by
    rcases outlined_parts k p hp v hv with rfl | rfl
    · exact .word _ (fun _ h => absurd h (by decide))
    · exact .word _ (fun _ h => absurd h (by decide)))
  ⟨.style, .outlineStyle, by simp [partProps], Option.isSome_iff_ne_none.1 rfl⟩
example (P : Printer) (hP : ∀ q, '{' ∉ P.reprFloat q ∧ '}' ∉ P.reprFloat q) (other : PyStr → Res PyStr) := C70_repr exampleEnv P hP other outlined outlined_reachable .outline _ rfl
  (fun k p hp u hu => by rcases outlined_parts k p hp _ hu with h | h <;> cases h)

example := C26_copy_partial exampleEnv [7] outlined outlined_reachable (fun p v h => by
  have : ∀ p v, outlined.css p = some v → ∃ s, v = .str s := by
    intro p v h
    cases p <;> cases h <;> exact ⟨_, rfl⟩
  obtain ⟨s, rfl⟩ := this p v h
  trivial) allLH mem_allLH .unbound

/-! ## Whole numbers -/

theorem context_by_test : ∀ {n : Node}, establishesInline n.style n.intrinsic n.children = false → n.BlockContext
  | .mk _ _ _ _, h => (blockContext_iff ..).1 h

example := C113_whole .b64 screen false none Whole.poster _ Whole.screen_integral nofun (Whole.simple_doc b64_laws b64_laws _ Whole.poster_simple) (laidDoc_ok (by decide +kernel))
example := C113_any .b64 .ieee screen false none Whole.poster Whole.screen_integral nofun (Whole.simple_doc b64_laws ieee_laws _ Whole.poster_simple)
example := C113_stack .b64 b64_laws screen false _ Whole.poster _ _ _ Whole.screen_integral Whole.poster_simple (laidDoc_ok (by decide +kernel)) (.here _ _ _)
  (fun h => absurd ((isNone_iff _).2 h) (by decide +kernel)) (context_by_test (by decide +kernel))

end Colosseum
