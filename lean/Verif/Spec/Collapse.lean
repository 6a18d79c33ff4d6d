import Verif.Spec.Flow

/-!
# Specification: the vertical margins that collapse

What the engine does; C82 compares it with CSS 2.1, section 8.3.1.
-/

namespace Colosseum

/-- The number of pixels of a margin that is a whole number of pixels (an `int`), 0 for any other. -/
def Val.whole (v : Val) (fp : FP) (d : Display) : Int :=
  match v.px fp ⟨d, dummyFont fp, Option.none⟩ with
  | .ok (.int i) => i
  | _ => 0

/-- The largest top margin of the element, its first child, the first child of that, and so on, if positive. -/
def Node.edgeTop (fp : FP) (d : Display) : Node → Int
  | .mk s _ _ [] => max 0 ((s.get (.margin .top)).whole fp d)
  | .mk s _ _ (c :: _) => max (max 0 ((s.get (.margin .top)).whole fp d)) (c.edgeTop fp d)

mutual
/-- The largest bottom margin of the element, its last child, the last child of that, and so on while the heights are automatic, if positive. -/
def Node.edgeBottom (fp : FP) (d : Display) : Node → Int
  | .mk s _ _ cs =>
    max (max 0 ((s.get (.margin .bottom)).whole fp d)) (if (s.get .height).isKw "auto" then lastBottom fp d cs else 0)
/-- That of the last element of a list. -/
def lastBottom (fp : FP) (d : Display) : List Node → Int
  | [] => 0
  | [c] => c.edgeBottom fp d
  | _ :: c :: cs => lastBottom fp d (c :: cs)
end

/-- Blocks only, whose vertical margins are lengths or `auto`. -/
def Node.Blocky (n : Node) (fp : FP) (d : Display) : Prop := ∀ m, Sub m n →
  (m.style.get .display = kw "block" ∨ m.style.get .display = kw "list-item") ∧ m.intrinsic.isReplaced = false ∧
  ∀ t, t = .top ∨ t = .bottom → m.style.get (.margin t) = kw "auto" ∨ ∃ x, (m.style.get (.margin t)).Length fp d (dummyFont fp) x

end Colosseum
