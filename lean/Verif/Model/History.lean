import Verif.Model.Declaration

/-!
# Histories of operations on a declaration
-/

namespace Colosseum

/-- An operation of the public interface of `CSS` (`/repo/src/colosseum/declaration.py:85-275,669-732`).
`bind` stands for whatever happens to the node the declaration belongs to: assigning the declaration to
a node, layout replacing or removing the box, the box being marked. -/
inductive Op
  | setAttr (a : Attr) (v : Val)
  | delAttr (a : Attr)
  | setItem (n : PyStr) (v : Val)
  | delItem (n : PyStr)
  | update (kvs : List (PyStr × Val))
  | bind (l : Link)

/-- One operation, labelled `at_`. -/
def Decl.step (E : Env) (at_ : List Nat) (d : Decl) : Op → Out
  | .setAttr a v => d.setAttr E at_ a v
  | .delAttr a => (d.delAttr a, none)
  | .setItem n v => d.setItem E at_ n v
  | .delItem n => d.delItem n
  | .update kvs => d.update E at_ kvs
  | .bind l => ({ d with link := l }, none)

/-- The state after a history; an operation that raises leaves the state it reached and the history
goes on. The `i`-th operation is labelled `[i]`. -/
def Decl.run (E : Env) : Nat → Decl → List Op → Decl
  | _, d, [] => d
  | i, d, o :: os => Decl.run E (i + 1) (d.step E [i] o).1 os

/-- The states a program can reach from `CSS()` (`/repo/src/colosseum/declaration.py:279-282`). The
constructor's `**style` is an `update`. -/
def Reachable (E : Env) (d : Decl) : Prop := ∃ ops, d = Decl.run E 0 ⟨CSS.empty, .unbound⟩ ops

end Colosseum
