import Verif.Spec.Document

/-!
# Small documents for the examples and counterexamples
-/

namespace Colosseum

/-- A declaration with the given properties set. -/
def styled (ps : List (LH × Val)) : CSS := ps.foldl (fun c p => c.store p.1 p.2) CSS.empty

/-- A length in pixels. -/
def px (n : Int) : Val := .unit ⟨.len .px, .fin (.int n)⟩

/-- A percentage. -/
def pct (n : Int) : Val := .unit ⟨.len .percent, .fin (.int n)⟩

/-- A new node with a fresh box. -/
def node (ps : List (LH × Val)) (cs : List Node) : Node := .mk (styled ps) .initial (some .fresh) cs

/-- `display: block` and the given properties. -/
def block (ps : List (LH × Val)) (cs : List Node) : Node := node ((.display, kw "block") :: ps) cs

/-- `display: none`, without box. -/
def hidden (cs : List Node) : Node := .mk (styled [(.display, .none)]) .initial none cs

/-- A display of 640 by 480 pixels at 96 dots per inch. -/
def screen : Display := ⟨.int 96, .int 640, .int 480, .int 1, .int 3, .int 5⟩

/-- The box at a path after layout; `none` when the layout fails. -/
def laidBox (fp : FP) (d : Display) (n : Node) (p : List Nat) : Option Box :=
  match layout fp d false none n with
  | .ok n' => n'.boxAt p
  | .error _ => none

/-- The document after a layout that succeeds. -/
def laidDoc (fp : FP) (d : Display) (n : Node) : Node :=
  match layout fp d false none n with
  | .ok n' => n'
  | .error _ => n

theorem laidDoc_ok {fp : FP} {d : Display} {n : Node} (h : (layout fp d false none n).isOk = true) :
    layout fp d false none n = .ok (laidDoc fp d n) := by
  unfold laidDoc
  cases hl : layout fp d false none n with
  | ok n' => rfl
  | error e => rw [hl] at h; cases h

theorem shown_child {n : Node} {p b : Box} (i : Nat) (hp : n.boxAt [] = some p) (hb : n.boxAt [i] = some b) : Shown n [p] b := by
  obtain ⟨s, z, l, cs⟩ := n
  simp only [Node.boxAt, Node.layout, Node.children] at hp hb
  subst hp
  simp only [Option.isSome_some, if_true] at hb
  cases hc : cs[i]? with
  | none => rw [hc] at hb; cases hb
  | some c => rw [hc] at hb; exact .step rfl (List.mem_of_getElem? hc) (.here hb)

end Colosseum
