import Verif.Props.Layout
import Verif.Props.Blueprint
import Verif.Props.Boxes

/-!
# C100: what is clean need not be laid out again
-/

namespace Colosseum

/-- What a program can do to a style or an intrinsic size, through any operation on declarations; or mark the layout. -/
inductive Touch
  | style (at_ : List Nat) (o : Op)
  | size (x : SizeAttr)
  | mark

/-- The element after it. -/
def Node.touch (E : Env) : Touch → Node → Node
  | .style at_ o, n => (n.onStyle fun d => d.step E at_ o).1
  | .size x, n => (n.setSize x).1
  | .mark, n => (n.markLayout (some true)).1

/-- What becomes of a document by any sequence of changes to styles and intrinsic sizes of elements that have boxes, whether they succeed or raise. -/
inductive Touched (E : Env) (n : Node) : Node → Prop
  | start : Touched E n n
  | step {m : Node} (q : List Nat) (t : Touch) : Touched E n m → (m.boxAt q).isSome → (∀ at_ l, t ≠ .style at_ (.bind l)) → Touched E n (m.atPath (Node.touch E t) q)

/-- The document is as it was except below dirty boxes. -/
inductive Tracks : Node → Node → Prop
  | dirty (n : Node) {m : Node} {b : Box} : m.layout = some b → b.Dirty → Tracks n m
  | same (s : CSS) (z : Intrinsic) (b : Box) {cs cs' : List Node} : cs.length = cs'.length → (∀ (i : Nat) (c c' : Node), cs[i]? = some c → cs'[i]? = some c' → Tracks c c') →
      Tracks (.mk s z (some b) cs) (.mk s z (some b) cs')
  | bare (n : Node) : n.layout = none → Tracks n n

theorem Tracks.refl (n : Node) : Tracks n n := by
  induction n using Node.ind with
  | h s z l cs ih =>
    cases l with
    | none => exact .bare _ rfl
    | some b =>
      refine .same s z b rfl fun i c c' h h' => ?_
      rw [h] at h'
      cases h'
      exact ih c (List.mem_of_getElem? h)

theorem touch_cases (E : Env) (t : Touch) (ht : ∀ at_ l, t ≠ .style at_ (.bind l)) (m : Node) (b : Box) (hb : m.layout = some b) :
    m.touch E t = m ∨ ∃ b', (m.touch E t).layout = some b' ∧ b'.Dirty := by
  have marked : ∀ k : Node, k.layout = some b → ∃ b', (k.setDirty (some true)).layout = some b' ∧ b'.Dirty := by
    intro k hk
    have h := setDirty_layout (some true) k
    cases hx : (k.setDirty (some true)).layout with
    | none => rw [h.1.1 hx] at hk; cases hk
    | some b' => exact ⟨b', rfl, h.2 b' hx⟩
  obtain ⟨s, z, l, cs⟩ := m
  cases hb
  cases t with
  | style at_ o =>
    have hl := C36_changes_mark E at_ ⟨s, .box b.dirty⟩ b.dirty rfl o (fun l e => ht at_ l (by rw [e]))
    simp only [Node.touch, Node.onStyle]
    generalize Decl.step E at_ ⟨s, .box b.dirty⟩ o = r at hl
    obtain ⟨⟨css, link⟩, e⟩ := r
    rcases hl with hl | hl
    · cases hl
      refine Or.inl ?_
      simp only [Node.setDirty, if_pos]
    · simp only at hl
      subst hl
      exact Or.inr (marked _ rfl)
  | size x =>
    simp only [Node.touch, Node.setSize]
    cases z.assign x with
    | none => exact Or.inl rfl
    | some z' => exact Or.inr (marked _ rfl)
  | mark => exact Or.inr (marked _ rfl)

theorem tracks_step {E : Env} {t : Touch} (ht : ∀ at_ l, t ≠ .style at_ (.bind l)) : ∀ {q : List Nat} {n m : Node}, Tracks n m → (m.boxAt q).isSome →
    Tracks n (m.atPath (Node.touch E t) q) := by
  intro q
  induction q with
  | nil =>
    intro n m h hb
    obtain ⟨b, hb⟩ := Option.isSome_iff_exists.1 hb
    have hb : m.layout = some b := hb
    rcases touch_cases E t ht m b hb with e | ⟨b', h1, h2⟩
    · simp only [Node.atPath, e]; exact h
    · exact .dirty n h1 h2
  | cons i q ih =>
    intro n m h hb
    cases h with
    | @dirty _ _ b h1 h2 =>
      obtain ⟨s, z, l, cs⟩ := m
      exact .dirty n h1 h2
    | @same s z b cs cs' hl hk =>
      simp only [Node.atPath]
      refine .same s z b (by rw [List.length_modify]; exact hl) fun j c c' h h' => ?_
      rw [List.getElem?_modify] at h'
      simp only [Node.boxAt, Node.layout, Option.isSome_some, if_true, Node.children] at hb
      cases hx : cs'[j]? with
      | none => rw [hx] at h'; cases h'
      | some c0 =>
        rw [hx] at h'
        simp only [Option.map_eq_map, Option.map_some, Option.some.injEq] at h'
        subst h'
        split
        · rename_i e
          subst e
          rw [hx, Option.bind_some] at hb
          exact ih (hk i c c0 h hx) hb
        · exact hk j c c0 h hx
    | bare _ h0 =>
      obtain ⟨s, z, l, cs⟩ := n
      cases h0
      cases hb

theorem tracks_clean {n : Node} : ∀ {m : Node}, Tracks n m → (∀ q b, m.boxAt q = some b → ¬ b.Dirty) → m = n := by
  induction n using Node.ind with
  | h s z l cs ih =>
    intro m h hc
    cases h with
    | @dirty _ _ b h1 h2 => exact absurd h2 (hc [] b h1)
    | @same _ _ b _ cs' hl hk =>
      suffices e : cs' = cs by rw [e]
      refine List.ext_getElem? fun i => ?_
      cases h : cs[i]? with
      | none => rw [List.getElem?_eq_none_iff] at h ⊢; omega
      | some c =>
        have hi : i < cs'.length := by
          have := (List.getElem?_eq_some_iff.1 h).1
          omega
        rw [List.getElem?_eq_getElem hi]
        refine congrArg some (ih c (List.mem_of_getElem? h) (hk i c _ h (List.getElem?_eq_getElem hi)) fun q b hb => hc (i :: q) b ?_)
        simp only [Node.boxAt, Node.layout, Option.isSome_some, if_true, Node.children, List.getElem?_eq_getElem hi, Option.bind_some]
        exact hb
    | bare _ h0 => rfl

/-- **C100.** After any changes to styles and intrinsic sizes: if none of the boxes is dirty, nothing has changed. -/
theorem C100_unchanged (E : Env) (n m : Node) (h : Touched E n m) (hc : ∀ q b, m.boxAt q = some b → ¬ b.Dirty) : m = n := by
  refine tracks_clean ?_ hc
  clear hc
  induction h with
  | start => exact .refl n
  | step q t _ hb ht ih => exact tracks_step ht ih hb

/-- A box apart from its flag. -/
def Box.still (b : Box) : Box := { b with dirty := none }

theorem setDirties_eq (v : Option Bool) (cs : List Node) : setDirties v cs = cs.map (Node.setDirty v) := by
  induction cs with
  | nil => rfl
  | cons c cs ih => simp only [setDirties, ih, List.map_cons]

theorem stripAll_eq_map (cs : List Node) : stripAll cs = cs.map Node.strip := by
  induction cs with
  | nil => rfl
  | cons c cs ih => simp only [stripAll, ih, List.map_cons]

theorem setDirty_same (v : Option Bool) (n : Node) : (n.setDirty v).strip = n.strip ∧ ∀ q, ((n.setDirty v).boxAt q).map Box.still = (n.boxAt q).map Box.still := by
  induction n using Node.ind with
  | h s z l cs ih =>
    cases l with
    | none => exact ⟨rfl, fun q => rfl⟩
    | some b =>
      simp only [Node.setDirty]
      split
      · exact ⟨rfl, fun q => rfl⟩
      · refine ⟨?_, fun q => ?_⟩
        · simp only [Node.strip, setDirties_eq, stripAll_eq_map, List.map_map]
          congr 1
          refine List.map_congr_left fun c hc => (ih c hc).1
        · cases q with
          | nil => rfl
          | cons i q =>
            simp only [Node.boxAt, Node.layout, Option.isSome_some, if_true, Node.children, setDirties_eq, List.getElem?_map]
            cases h : cs[i]? with
            | none => rfl
            | some c => exact (ih c (List.mem_of_getElem? h)).2 q

/-- **C100.** A document is laid out and its layout is declared clean. After any changes to styles and intrinsic sizes of elements with boxes, as long as no
box is dirty, its boxes are those that a new layout would give. -/
theorem C100_good (E : Env) (d : Display) (html5 : Bool) (p : Option CSS) (n n' m : Node) (hb : AllBoxed n) (h : layout E.fp d html5 p n = .ok n')
    (ht : Touched E (n'.markLayout (some false)).1 m) (hc : ∀ q b, m.boxAt q = some b → ¬ b.Dirty) :
    ∃ m', layout E.fp d html5 p m = .ok m' ∧ ∀ q, (m'.boxAt q).map Box.still = (m.boxAt q).map Box.still := by
  rw [C100_unchanged E _ m ht hc]
  obtain ⟨n'', h1, h2, h3⟩ := C43_again_partial E.fp d html5 p n n' hb h
  obtain ⟨e1, e2⟩ := setDirty_same (some false) n'
  obtain ⟨m', h4, h5⟩ := C43_contents_partial E.fp d html5 p n' (n'.setDirty (some false)) n'' e1.symm
    (fun q => by have := congrArg Option.isSome (e2 q); simpa using this.symm) h3 h1
  refine ⟨m', h4, fun q => ?_⟩
  rw [← h5 q, h2 q]
  exact (e2 q).symm

/-! ## Documents -/

mutual
/-- No box that layout can reach is dirty. -/
def Node.spotless : Node → Bool
  | .mk _ _ none _ => true
  | .mk _ _ (some b) cs => decide (b.dirty ≠ some true) && spotlessAll cs
/-- Of none of the nodes. -/
def spotlessAll : List Node → Bool
  | [] => true
  | c :: cs => c.spotless && spotlessAll cs
end

theorem spotlessAll_mem {cs : List Node} (h : spotlessAll cs = true) : ∀ c ∈ cs, c.spotless = true := by
  induction cs with
  | nil => intro c hc; cases hc
  | cons d cs ih =>
    simp only [spotlessAll, Bool.and_eq_true] at h
    intro c hc
    rcases List.mem_cons.1 hc with rfl | hc
    · exact h.1
    · exact ih h.2 c hc

theorem spotless_boxes {n : Node} : n.spotless = true → ∀ q b, n.boxAt q = some b → ¬ b.Dirty := by
  induction n using Node.ind with
  | h s z l cs ih =>
    intro h q b hb
    cases l with
    | none => cases q <;> cases hb
    | some b0 =>
      simp only [Node.spotless, Bool.and_eq_true, decide_eq_true_eq] at h
      cases q with
      | nil => cases hb; exact h.1
      | cons i q =>
        simp only [Node.boxAt, Node.layout, Option.isSome_some, if_true, Node.children] at hb
        cases hx : cs[i]? with
        | none => rw [hx] at hb; cases hb
        | some c =>
          rw [hx, Option.bind_some] at hb
          exact ih c (List.mem_of_getElem? hx) (spotlessAll_mem h.2 c (List.mem_of_getElem? hx)) q b hb

/-- A block around two others. -/
def twoBlocks : Node := block [] [block [(.width, px 30)] [], block [(.height, px 20)] [block [(.height, px 5)] []]]

/-- It is clean after it is laid out and declared clean, and remains so when a width is set that it has already and a size that it has already; when another
width is set, a box is dirty. -/
example (E : Env) (hE : E.fp = .b64) : ∃ n' m m', AllBoxed twoBlocks ∧ layout E.fp screen false none twoBlocks = .ok n' ∧
    Touched E (n'.markLayout (some false)).1 m ∧ (∀ q b, m.boxAt q = some b → ¬ b.Dirty) ∧
    Touched E (n'.markLayout (some false)).1 m' ∧ ∃ b, m'.boxAt [1, 0] = some b ∧ b.Dirty := by
  have h : layout E.fp screen false none twoBlocks = .ok (laidDoc .b64 screen twoBlocks) := by
    rw [hE]
    exact laidDoc_ok (by decide +kernel)
  refine ⟨_, _, _, full_boxed _ (by decide +kernel), h, .step [0] (.size (.width none)) .start (by decide +kernel) (fun _ _ e => nomatch e), ?_,
    .step [1] (.size (.width (some (.int 7)))) .start (by decide +kernel) (fun _ _ e => nomatch e), ?_⟩
  · have : (((laidDoc .b64 screen twoBlocks).markLayout (some false)).1.atPath (fun n => (n.setSize (.width none)).1) [0]).spotless = true := by decide +kernel
    exact spotless_boxes this
  · have : ((((laidDoc .b64 screen twoBlocks).markLayout (some false)).1.atPath (fun n => (n.setSize (.width (some (.int 7)))).1) [1]).boxAt [1, 0]).map Box.dirty =
        some (some true) := by decide +kernel
    obtain ⟨b, h1, h2⟩ := Option.map_eq_some_iff.1 this
    exact ⟨b, h1, h2⟩

/-- For an element without box it would be false: nothing is marked although the width, once it is displayed, would count. -/
theorem C100_needs_box (E : Env) : ∃ n : Node, (∀ q b, (n.atPath (Node.touch E (.size (.width (some (.int 7))))) [0]).boxAt q = some b → ¬ b.Dirty) ∧
    n.atPath (Node.touch E (.size (.width (some (.int 7))))) [0] ≠ n := by
  refine ⟨.mk (styled []) .initial (some { Box.fresh with dirty := some false }) [hidden []], spotless_boxes rfl, fun e => ?_⟩
  have : [some (Num.int 7)] = [none] := congrArg (fun n : Node => n.children.map fun c : Node => c.intrinsic.width) e
  cases this

end Colosseum
