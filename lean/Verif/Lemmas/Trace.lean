import Verif.Model.Trace
import Verif.Lemmas.Created

/-!
# The state after an exception
-/

namespace Colosseum

/-! ## Forgetting the state after an exception -/

/-- The result as in `Verif/Model/Engine.lean`. -/
def outcome {α : Type} (r : α × Option Err) : Res α :=
  match r.2 with
  | none => .ok r.1
  | some e => .error e

theorem outcome_seq (s t : Code) (k : Kit) : outcome ((s ⨟ t) k) = (outcome (s k)).bind fun k => outcome (t k) := by
  unfold Code.seq
  rcases h : s k with ⟨k', _ | e⟩ <;> simp [outcome, Except.bind]

theorem outcome_eval {α : Type} (x : Kit → Res α) (t : α → Code) (k : Kit) : outcome (Code.eval x t k) = (x k).bind fun v => outcome (t v k) := by
  unfold Code.eval
  cases h : x k <;> simp [outcome, Except.bind]

theorem outcome_write (f : Box → Box) (k : Kit) : outcome (Code.write f k) = .ok (f k.1, k.2) := rfl
theorem outcome_moveTo (fp : FP) (a : Axis) (v : Box → Num) (k : Kit) : outcome (Code.moveTo fp a v k) = .ok (setContent fp a (v k.1) k.1 k.2) := rfl
theorem outcome_fail (e : Err) (k : Kit) : outcome (Code.fail e k) = .error e := rfl
theorem outcome_skip (k : Kit) : outcome (Code.skip k) = .ok k := rfl
theorem ok_bind' {α β : Type} (a : α) (f : α → Res β) : Except.bind (.ok a) f = f a := rfl
theorem error_bind' {α β : Type} (e : Err) (f : α → Res β) : Except.bind (.error e) f = .error e := rfl
theorem bind_except {α β : Type} (x : Res α) (f : α → Res β) : x >>= f = Except.bind x f := rfl
theorem pure_except {α : Type} (x : α) : (pure x : Res α) = .ok x := rfl

theorem outcome_edges (fp : FP) (s : CSS) (hz vt : PxCtx) (b : Box) (cs : List Node) :
    outcome (runEdges fp s hz vt (b, cs)) = (copyEdges fp s hz vt b).bind fun b => .ok (b, cs) := by
  unfold runEdges copyEdges runMargin runBorder runPadding
  simp only [outcome_seq, outcome_eval, outcome_write, ok_bind', bind_except, pure_except]
  cases calculateSize fp (s.get (.margin .top)) vt with | error e => rfl | ok v1 => ?_
  cases calculateSize fp (s.get (.margin .right)) hz with | error e => rfl | ok v2 => ?_
  cases calculateSize fp (s.get (.margin .bottom)) vt with | error e => rfl | ok v3 => ?_
  cases calculateSize fp (s.get (.margin .left)) hz with | error e => rfl | ok v4 => ?_
  simp only [ok_bind']
  cases calculateEdge fp (s.get (.borderWidth .top)) hz with | error e => rfl | ok v5 => ?_
  cases calculateEdge fp (s.get (.borderWidth .right)) vt with | error e => rfl | ok v6 => ?_
  cases calculateEdge fp (s.get (.borderWidth .bottom)) hz with | error e => rfl | ok v7 => ?_
  cases calculateEdge fp (s.get (.borderWidth .left)) vt with | error e => rfl | ok v8 => ?_
  cases calculateEdge fp (s.get (.padding .top)) hz with | error e => rfl | ok v9 => ?_
  cases calculateEdge fp (s.get (.padding .right)) vt with | error e => rfl | ok v10 => ?_
  cases calculateEdge fp (s.get (.padding .bottom)) hz with | error e => rfl | ok v11 => ?_
  cases calculateEdge fp (s.get (.padding .left)) vt with | error e => rfl | ok v12 => ?_
  simp only [ok_bind']
  rfl

theorem outcome_width (fp : FP) (s : CSS) (z : Intrinsic) (c : PxCtx) (k : Kit) :
    outcome (runWidth fp s z c k) = widthAndMargins fp s z c k.1 k.2 := by
  unfold runWidth widthAndMargins
  split
  · rfl
  split
  · rfl
  split
  · split
    · unfold runInlineReplacedWidth inlineReplacedWidth runPlaceLeft placeLeft runZero
      simp only [outcome_seq, outcome_eval, outcome_write, outcome_moveTo, ok_bind', bind_except, pure_except]
    · rfl
  split
  · split
    · rfl
    · unfold runBlockWidth blockWidth
      split
      · unfold runPlaceLeft placeLeft runZero autoWidth
        simp only [outcome_seq, outcome_eval, outcome_write, outcome_moveTo, ok_bind', bind_except, pure_except]
        cases need c.size with | error e => rfl | ok size => ?_
        simp only [ok_bind']
        cases (autoMarginToZero (autoMarginToZero k.1 .left) .right).margin.left.toNum with | error e => rfl | ok ml => ?_
        simp only [ok_bind']
        cases (autoMarginToZero (autoMarginToZero k.1 .left) .right).margin.right.toNum with | error e => rfl | ok mr => ?_
        simp only [ok_bind']
      · unfold runPlaceLeft placeLeft
        simp only [outcome_seq, outcome_eval, outcome_write, outcome_moveTo, ok_bind', bind_except, pure_except]
  split <;> rfl

theorem outcome_height (fp : FP) (s : CSS) (z : Intrinsic) (parent : Option CSS) (c : PxCtx) (k : Kit) :
    outcome (runHeight fp s z parent c k) = heightAndMargins fp s z parent c k.1 k.2 := by
  unfold runHeight heightAndMargins
  split
  · rfl
  split
  · rfl
  split
  · split
    · unfold runInlineReplacedHeight inlineReplacedHeight runPlaceTop placeTopInline runZero
      simp only [outcome_seq, outcome_eval, outcome_write, outcome_moveTo, ok_bind', bind_except, pure_except]
    · unfold runInlineHeight inlineHeight runPlaceTop placeTopInline
      simp only [outcome_seq, outcome_eval, outcome_write, outcome_moveTo, ok_bind', bind_except, pure_except]
  split
  · split
    · rfl
    · unfold runBlockHeight blockHeight runZero
      simp only [outcome_seq, outcome_eval, outcome_write, outcome_moveTo, ok_bind', bind_except, pure_except]
  split <;> rfl

theorem outcome_relative (fp : FP) (s : CSS) (cb : CB) (hz vt : PxCtx) (k : Kit) :
    outcome (runRelative fp s cb hz vt k) = applyRelative fp s cb hz vt k.1 k.2 := by
  unfold runRelative applyRelative
  split
  · simp only [outcome_seq, outcome_eval, outcome_moveTo, ok_bind', bind_except, pure_except]
  · rfl

theorem outcome_inlineLoop {lay : Node → Node × Option Err} {lay' : Node → Res Node} (hl : ∀ n, outcome (lay n) = lay' n) :
    ∀ cs, outcome (runInlineLoop lay cs) = inlineLoop lay' cs := by
  intro cs
  induction cs with
  | nil => rfl
  | cons c cs ih =>
    simp only [runInlineLoop, inlineLoop, ← hl c, ← ih]
    rcases lay c with ⟨c', _ | e⟩
    · rcases runInlineLoop lay cs with ⟨cs', _ | e⟩ <;> rfl
    · rfl

theorem outcome_stack (fp : FP) (b : Box) (off : Num) (bm : Option Int) (c : Node) :
    stackChild fp b off bm c = match runStack fp b off bm c with
      | (_, _, .error e) => .error e
      | (b, c, .ok (off, bm)) => .ok (b, c, off, bm) := by
  rcases c with ⟨s, z, _ | cb, cs⟩
  · rfl
  · simp only [stackChild, runStack, bind_except, pure_except]
    rcases collapseAbove fp b off bm cb with e | ⟨b1, off1⟩
    · rfl
    · simp only [ok_bind']
      rcases (setContent fp .v (cb.v.content.add fp off1) cb cs).1.borderBoxHeight fp with _ | h <;> rfl

theorem outcome_blockLoop {fp : FP} {lay : Box → Node → Node × Option Err} {lay' : Box → Node → Res Node} (hl : ∀ b n, outcome (lay b n) = lay' b n) :
    ∀ (ks : List Container) (b : Box) (off : Num) (bm : Option Int), blockLoop fp lay' b off bm ks = match runBlockLoop fp lay b off bm ks with
      | (_, _, some e) => .error e
      | (b, cs, none) => .ok (b, cs) := by
  intro ks
  induction ks with
  | nil => intro b off bm; rfl
  | cons k ks ih =>
    intro b off bm
    cases k with
    | anon => rfl
    | node c =>
      simp only [runBlockLoop, blockLoop, ← hl b c, outcome_stack]
      rcases lay b c with ⟨c1, _ | e⟩
      · simp only [outcome]
        rcases runStack fp b off bm c1 with ⟨b1, c2, e | ⟨off1, bm1⟩⟩
        · rfl
        · simp only [ih]
          rcases runBlockLoop fp lay b1 off1 bm1 ks with ⟨b2, cs2, _ | e⟩ <;> rfl
      · rfl

theorem outcome_children {fp : FP} {lay : Box → Node → Node × Option Err} {lay' : Box → Node → Res Node} (hl : ∀ b n, outcome (lay b n) = lay' b n)
    (s : CSS) (z : Intrinsic) (k : Kit) : outcome (runChildren fp lay s z k) = layoutChildren fp lay' s z k.1 k.2 := by
  unfold runChildren layoutChildren
  split
  · rw [← outcome_inlineLoop (hl k.1)]
    rcases runInlineLoop (lay k.1) k.2 with ⟨cs, _ | e⟩ <;> rfl
  · rw [outcome_blockLoop hl]
    rcases runBlockLoop fp lay k.1 (.int 0) none (anonymize k.2) with ⟨b, cs, _ | e⟩ <;> rfl

theorem outcome_body {fp : FP} {d : Display} {lay : Box → Node → Node × Option Err} {lay' : Box → Node → Res Node} (hl : ∀ b n, outcome (lay b n) = lay' b n)
    (parent : Option CSS) (cb : CB) (s : CSS) (z : Intrinsic) (k : Kit) :
    outcome (runBody fp d lay parent cb s z k) = layoutBody fp d lay' parent cb s z k.1 k.2 := by
  obtain ⟨b, cs⟩ := k
  have skip : ∀ (x : Code) (k : Kit), outcome ((if isRelative s then x else Code.skip) k) = if isRelative s then outcome (x k) else .ok k := by
    intro x k; split <;> rfl
  unfold runBody layoutBody relativeHeight
  simp only [outcome_seq, outcome_edges, outcome_width, skip, outcome_height, bind_except]
  cases copyEdges fp s ⟨d, dummyFont fp, cb.width⟩ ⟨d, dummyFont fp, cb.height⟩ b with | error e => rfl | ok b1 => ?_
  simp only [ok_bind']
  cases widthAndMargins fp s z ⟨d, dummyFont fp, cb.width⟩ b1 cs with | error e => rfl | ok k2 => ?_
  simp only [ok_bind']
  congr 1
  funext k3
  split
  · rfl
  split
  · rfl
  simp only [outcome_seq, outcome_children hl, outcome_height, outcome_relative]

theorem outcome_box (fp : FP) (d : Display) (f : Nat) : ∀ (p : Option CSS) (cb : CB) (n : Node),
    outcome (runBox fp d f p cb n) = layoutBox fp d f p cb n := by
  induction f with
  | zero => intro p cb n; rfl
  | succ f ih =>
    rintro p cb ⟨s, z, l, cs⟩
    simp only [runBox, layoutBox]
    split
    · rfl
    · rw [← outcome_body fun b n => ih (some s) (.box b) n]
      cases l <;>
      · simp only
        generalize runBody fp d _ p cb s z _ = r
        rcases r with ⟨k, _ | e⟩ <;> rfl

theorem outcome_finish (fp : FP) (d : Display) (html5 : Bool) (n : Node) : outcome (runFinish fp d html5 n) = finishRoot fp d html5 n := by
  rcases n with ⟨s, z, _ | b, cs⟩ <;> rfl

/-- Forgetting the document after an exception, this is `layout`. -/
theorem runLayout_out (fp : FP) (d : Display) (html5 : Bool) (p : Option CSS) (n : Node) :
    outcome (runLayout fp d html5 p n) = layout fp d html5 p n := by
  unfold runLayout layout
  rcases n.layout with _ | b
  · rfl
  · simp only [← outcome_box]
    rcases runBox fp d n.depth p (.viewport d) (n.reset fp) with ⟨m, _ | e⟩
    · exact outcome_finish ..
    · rfl

/-! ## Code that only writes and moves the box -/

/-- The state left is reached by writes to the box and moves of it, also after an exception. -/
structure Code.Safe (fp : FP) (t : Code) : Prop where
  steps : ∀ k : Kit, Steps fp k.1 k.2 (t k).1.1 (t k).1.2

theorem safe_write {fp : FP} {f : Box → Box} (h : ∀ b, SameCore b (f b)) : Code.Safe fp (.write f) := ⟨fun k => .one (h k.1)⟩
theorem safe_moveTo (fp : FP) (a : Axis) (v : Box → Num) : Code.Safe fp (.moveTo fp a v) := ⟨fun k => .moved fp a (v k.1) k.1 k.2⟩
theorem safe_fail (fp : FP) (e : Err) : Code.Safe fp (.fail e) := ⟨fun _ => .refl ..⟩
theorem safe_skip (fp : FP) : Code.Safe fp .skip := ⟨fun _ => .refl ..⟩

theorem safe_seq {fp : FP} {s t : Code} (hs : Code.Safe fp s) (ht : Code.Safe fp t) : Code.Safe fp (s ⨟ t) := by
  constructor
  intro k
  have h := hs.steps k
  unfold Code.seq
  rcases e : s k with ⟨k', _ | x⟩
  · rw [e] at h; exact h.trans (ht.steps k')
  · rw [e] at h; exact h

theorem safe_eval {fp : FP} {α : Type} {x : Kit → Res α} {t : α → Code} (h : ∀ k v, x k = .ok v → Steps fp k.1 k.2 (t v k).1.1 (t v k).1.2) :
    Code.Safe fp (.eval x t) := by
  constructor
  intro k
  unfold Code.eval
  cases e : x k with
  | error => exact .refl ..
  | ok v => exact h k v e

theorem safe_eval' {fp : FP} {α : Type} {x : Kit → Res α} {t : α → Code} (h : ∀ v, Code.Safe fp (t v)) : Code.Safe fp (.eval x t) :=
  safe_eval fun k v _ => (h v).steps k

theorem safe_zero (fp : FP) (t u : Side) : Code.Safe fp (runZero t u) :=
  safe_seq (safe_write fun b => autoMargin_core b t) (safe_write fun b => autoMargin_core b u)

theorem safe_edges (fp : FP) (s : CSS) (hz vt : PxCtx) : Code.Safe fp (runEdges fp s hz vt) := by
  have m : ∀ v c t, Code.Safe fp (runMargin fp v c t) := fun v c t => safe_eval' fun x => safe_write fun b => setMargin_core b t x
  have b : ∀ v c t, Code.Safe fp (runBorder fp v c t) := fun v c t => safe_eval' fun x => safe_write fun b => ⟨rfl, rfl, rfl⟩
  have p : ∀ v c t, Code.Safe fp (runPadding fp v c t) := fun v c t => safe_eval' fun x => safe_write fun b => ⟨rfl, rfl, rfl⟩
  exact safe_seq (m ..) (safe_seq (m ..) (safe_seq (m ..) (safe_seq (m ..) (safe_seq (b ..) (safe_seq (b ..) (safe_seq (b ..) (safe_seq (b ..)
    (safe_seq (p ..) (safe_seq (p ..) (safe_seq (p ..) (p ..)))))))))))

theorem safe_placeLeft (fp : FP) : Code.Safe fp (runPlaceLeft fp) := safe_eval' fun _ => safe_moveTo ..
theorem safe_placeTop (fp : FP) : Code.Safe fp (runPlaceTop fp) := safe_eval' fun _ => safe_moveTo ..

theorem safe_width (fp : FP) (s : CSS) (z : Intrinsic) (c : PxCtx) : Code.Safe fp (runWidth fp s z c) := by
  unfold runWidth
  split
  · exact safe_fail ..
  split
  · exact safe_fail ..
  split
  · split
    · exact safe_seq (safe_zero ..) (safe_eval' fun w => safe_seq (safe_write fun b => ⟨rfl, rfl, rfl⟩) (safe_placeLeft fp))
    · exact safe_seq (safe_zero ..) (safe_write fun b => ⟨rfl, rfl, rfl⟩)
  split
  · split
    · exact safe_fail ..
    · unfold runBlockWidth
      split
      · exact safe_seq (safe_zero ..) (safe_eval' fun w => safe_seq (safe_write fun b => ⟨rfl, rfl, rfl⟩) (safe_placeLeft fp))
      · exact safe_eval' fun w => safe_eval' fun size => safe_seq (safe_write fun b => solveMargins_core fp s size w b)
          (safe_seq (safe_write fun b => ⟨rfl, rfl, rfl⟩) (safe_placeLeft fp))
  split <;> exact safe_fail ..

theorem safe_height (fp : FP) (s : CSS) (z : Intrinsic) (parent : Option CSS) (c : PxCtx) : Code.Safe fp (runHeight fp s z parent c) := by
  unfold runHeight
  split
  · exact safe_fail ..
  split
  · exact safe_fail ..
  split
  · split
    · exact safe_seq (safe_zero ..) (safe_eval' fun w => safe_seq (safe_write fun b => ⟨rfl, rfl, rfl⟩) (safe_placeTop fp))
    · exact safe_seq (safe_write fun b => ⟨rfl, rfl, rfl⟩) (safe_placeTop fp)
  split
  · split
    · exact safe_fail ..
    · refine safe_seq (safe_zero ..) (safe_eval fun k v hv => ?_)
      refine Steps.write (contentHeight_core (b' := v.2) (x := v.1) hv) ?_
      exact (safe_seq (fp := fp) (s := .write fun b => { b with contentHeight := some v.1 })
        (t := .moveTo fp .v fun b => b.v.content.add fp (b.border.top.add fp b.padding.top))
        (safe_write fun b => ⟨rfl, rfl, rfl⟩) (safe_moveTo ..)).steps (v.2, k.2)
  split <;> exact safe_fail ..

theorem safe_relative (fp : FP) (s : CSS) (cb : CB) (hz vt : PxCtx) : Code.Safe fp (runRelative fp s cb hz vt) := by
  unfold runRelative
  split
  · exact safe_eval' fun dx => safe_seq (safe_moveTo ..) (safe_eval' fun dy => safe_moveTo ..)
  · exact safe_skip ..

/-! ## What `layout_box` does to a document, also when it raises -/

/-- A child moved by its parent. -/
inductive Shifted (fp : FP) : Node → Node → Prop
  | refl (n : Node) : Shifted fp n n
  | moved (s : CSS) (z : Intrinsic) (cb : Box) (cs : List Node) (v : Num) :
      Shifted fp (.mk s z (some cb) cs) (.mk s z (some (setContent fp .v v cb cs).1) (setContent fp .v v cb cs).2)

/-- `n'` is what `layout_box` leaves of `n` after it returned or raised. -/
def Went (fp : FP) : Nat → Node → Node → Prop
  | 0, n, n' => n' = n
  | f + 1, .mk s z l cs, n' =>
    (s.get .display = .none ∧ n' = .mk s z none cs) ∨
    (s.get .display ≠ .none ∧ ∃ b cs0 b3 cs3 b4 cs4 b' cs',
      (l = some b ∧ cs0 = cs ∨ l = none ∧ b = Box.fresh ∧ cs0 = (resetOne fp cs).2) ∧
      Steps fp b cs0 b3 cs3 ∧ SameCore b3 b4 ∧
      List.Forall₂ (fun c c' => c' = c ∨ ∃ c1, visits s z cs3 c = true ∧ Went fp f c c1 ∧ Shifted fp c1 c') cs3 cs4 ∧
      Steps fp b4 cs4 b' cs' ∧ n' = .mk s z (some b') cs')

theorem inlineLoop_went {lay : Node → Node × Option Err} {R : Node → Node → Prop} (h : ∀ c, R c (lay c).1) :
    ∀ cs, List.Forall₂ (fun c c' => c' = c ∨ R c c') cs (runInlineLoop lay cs).1 := by
  intro cs
  induction cs with
  | nil => exact .nil
  | cons c cs ih =>
    have hc := h c
    simp only [runInlineLoop]
    rcases e : lay c with ⟨c', _ | x⟩
    · rw [e] at hc; exact .cons (Or.inr hc) ih
    · rw [e] at hc; exact .cons (Or.inr hc) (List.forall₂_same.2 fun c _ => Or.inl rfl)

theorem stack_went (fp : FP) (b : Box) (off : Num) (bm : Option Int) (c : Node) :
    SameCore b (runStack fp b off bm c).1 ∧ Shifted fp c (runStack fp b off bm c).2.1 := by
  rcases c with ⟨s, z, _ | cb, cs⟩
  · exact ⟨.rfl, .refl _⟩
  · simp only [runStack]
    rcases e : collapseAbove fp b off bm cb with x | ⟨b1, off1⟩
    · exact ⟨.rfl, .refl _⟩
    · have hc : SameCore b b1 := by
        unfold collapseAbove at e
        split at e
        · cases e; exact setCollapse_core ..
        · obtain ⟨mt, _, e⟩ := bind_eq_ok.1 e
          cases e; exact .rfl
      simp only
      split
      · exact ⟨hc, .moved ..⟩
      · exact ⟨hc, .moved ..⟩

theorem blockLoop_went {fp : FP} {lay : Box → Node → Node × Option Err} {R : Node → Node → Prop} (h : ∀ b c, R c (lay b c).1) :
    ∀ (cs : List Node) (b : Box) (off : Num) (bm : Option Int),
      SameCore b (runBlockLoop fp lay b off bm (anonymize cs)).1 ∧
      List.Forall₂ (fun c c' => c' = c ∨ ∃ c1, isBlockLevel c.style = true ∧ R c c1 ∧ Shifted fp c1 c') cs
        ((runBlockLoop fp lay b off bm (anonymize cs)).2.1 ++ cs.drop (runBlockLoop fp lay b off bm (anonymize cs)).2.1.length) := by
  intro cs
  induction cs with
  | nil => intro b off bm; exact ⟨.rfl, .nil⟩
  | cons c cs ih =>
    intro b off bm
    have same : ∀ l : List Node, List.Forall₂ (fun c c' => c' = c ∨ ∃ c1, isBlockLevel c.style = true ∧ R c c1 ∧ Shifted fp c1 c') l l := fun l =>
      List.forall₂_same.2 fun c _ => Or.inl rfl
    simp only [anonymize, anonymizeLoop]
    split
    · rename_i hbl
      simp only [runBlockLoop]
      have hc := h b c
      rcases e : lay b c with ⟨c1, _ | x⟩
      · rw [e] at hc
        obtain ⟨g1, g2⟩ := stack_went fp b off bm c1
        simp only
        rcases e2 : runStack fp b off bm c1 with ⟨b1, c2, x | ⟨off1, bm1⟩⟩
        · rw [e2] at g1 g2
          exact ⟨g1, .cons (Or.inr ⟨c1, hbl, hc, g2⟩) (same _)⟩
        · rw [e2] at g1 g2
          obtain ⟨k1, k2⟩ := ih b1 off1 bm1
          exact ⟨g1.trans k1, .cons (Or.inr ⟨c1, hbl, hc, g2⟩) k2⟩
      · rw [e] at hc
        exact ⟨.rfl, .cons (Or.inr ⟨c1, hbl, hc, .refl _⟩) (same _)⟩
    · rcases anonymizeLoop_anon _ rfl with h0 | ⟨ys, r, h0⟩ <;> rw [h0] <;> exact ⟨.rfl, same _⟩

theorem children_went {fp : FP} {lay : Box → Node → Node × Option Err} {R : Node → Node → Prop} (h : ∀ b c, R c (lay b c).1)
    (s : CSS) (z : Intrinsic) (k : Kit) : SameCore k.1 (runChildren fp lay s z k).1.1 ∧
      List.Forall₂ (fun c c' => c' = c ∨ ∃ c1, visits s z k.2 c = true ∧ R c c1 ∧ Shifted fp c1 c') k.2 (runChildren fp lay s z k).1.2 := by
  unfold runChildren
  split
  · rename_i hi
    exact ⟨.rfl, (inlineLoop_went (h k.1) k.2).imp fun _ _ g => g.imp id fun g => ⟨_, by simp [visits, hi], g, .refl _⟩⟩
  · obtain ⟨g1, g2⟩ := blockLoop_went h k.2 k.1 (.int 0) none
    exact ⟨g1, g2.imp fun _ _ g => g.imp id fun ⟨c1, q1, q2⟩ => ⟨c1, by simp [visits, q1], q2⟩⟩

theorem body_went {fp : FP} {d : Display} {lay : Box → Node → Node × Option Err} {R : Node → Node → Prop} (h : ∀ b c, R c (lay b c).1)
    (parent : Option CSS) (cb : CB) (s : CSS) (z : Intrinsic) (k : Kit) : ∃ b3 cs3 b4 cs4, Steps fp k.1 k.2 b3 cs3 ∧ SameCore b3 b4 ∧
      List.Forall₂ (fun c c' => c' = c ∨ ∃ c1, visits s z cs3 c = true ∧ R c c1 ∧ Shifted fp c1 c') cs3 cs4 ∧
      Steps fp b4 cs4 (runBody fp d lay parent cb s z k).1.1 (runBody fp d lay parent cb s z k).1.2 := by
  have same : ∀ cs3 l : List Node, List.Forall₂ (fun c c' => c' = c ∨ ∃ c1, visits s z cs3 c = true ∧ R c c1 ∧ Shifted fp c1 c') l l := fun _ l =>
    List.forall₂_same.2 fun c _ => Or.inl rfl
  have stop : ∀ k' : Kit, Steps fp k.1 k.2 k'.1 k'.2 → ∃ b3 cs3 b4 cs4, Steps fp k.1 k.2 b3 cs3 ∧ SameCore b3 b4 ∧
      List.Forall₂ (fun c c' => c' = c ∨ ∃ c1, visits s z cs3 c = true ∧ R c c1 ∧ Shifted fp c1 c') cs3 cs4 ∧ Steps fp b4 cs4 k'.1 k'.2 := fun k' g =>
    ⟨_, _, _, _, g, .rfl, same _ _, .refl ..⟩
  have before : ∀ (x t : Code), Code.Safe fp x → (∀ k0 : Kit, Steps fp k.1 k.2 k0.1 k0.2 → ∃ b3 cs3 b4 cs4, Steps fp k.1 k.2 b3 cs3 ∧ SameCore b3 b4 ∧
      List.Forall₂ (fun c c' => c' = c ∨ ∃ c1, visits s z cs3 c = true ∧ R c c1 ∧ Shifted fp c1 c') cs3 cs4 ∧ Steps fp b4 cs4 (t k0).1.1 (t k0).1.2) →
      ∀ k0 : Kit, Steps fp k.1 k.2 k0.1 k0.2 → ∃ b3 cs3 b4 cs4, Steps fp k.1 k.2 b3 cs3 ∧ SameCore b3 b4 ∧
      List.Forall₂ (fun c c' => c' = c ∨ ∃ c1, visits s z cs3 c = true ∧ R c c1 ∧ Shifted fp c1 c') cs3 cs4 ∧ Steps fp b4 cs4 ((x ⨟ t) k0).1.1 ((x ⨟ t) k0).1.2 := by
    intro x t hx ht k0 h0
    have g := h0.trans (hx.steps k0)
    unfold Code.seq
    rcases e : x k0 with ⟨k1, _ | er⟩
    · rw [e] at g; exact ht k1 g
    · rw [e] at g; exact stop k1 g
  unfold runBody
  refine before _ _ (safe_edges ..) (before _ _ (safe_width ..) (before _ _ ?_ ?_)) k (.refl ..)
  · split
    · exact safe_height ..
    · exact safe_skip ..
  · intro k0 h0
    split
    · exact stop k0 h0
    split
    · exact stop k0 h0
    · obtain ⟨g1, g2⟩ := children_went (fp := fp) h s z k0
      refine ⟨k0.1, k0.2, _, _, h0, g1, g2, ?_⟩
      generalize hx : runChildren fp lay s z = x
      have tail := safe_seq (safe_height fp s z parent ⟨d, dummyFont fp, cb.height⟩)
        (safe_relative fp s cb ⟨d, dummyFont fp, cb.width⟩ ⟨d, dummyFont fp, cb.height⟩)
      unfold Code.seq
      rcases e : x k0 with ⟨k1, _ | er⟩
      · exact tail.steps k1
      · exact .refl ..

theorem runBox_went (fp : FP) (d : Display) (f : Nat) : ∀ (p : Option CSS) (cb : CB) (n : Node), Went fp f n (runBox fp d f p cb n).1 := by
  induction f with
  | zero => intro p cb n; rfl
  | succ f ih =>
    rintro p cb ⟨s, z, l, cs⟩
    simp only [runBox, Went]
    by_cases hn : (s.get .display).isNone = true
    · rw [if_pos hn]
      exact Or.inl ⟨(hidden_iff s).1 hn, rfl⟩
    · rw [if_neg hn]
      refine Or.inr ⟨fun e => hn ((hidden_iff s).2 e), ?_⟩
      cases l with
      | some b =>
        obtain ⟨b3, cs3, b4, cs4, h1, h2, h3, h4⟩ := body_went (d := d) (fun b c => ih (some s) (.box b) c) p cb s z (b, cs)
        exact ⟨b, cs, b3, cs3, b4, cs4, _, _, Or.inl ⟨rfl, rfl⟩, h1, h2, h3, h4, rfl⟩
      | none =>
        obtain ⟨b3, cs3, b4, cs4, h1, h2, h3, h4⟩ := body_went (d := d) (fun b c => ih (some s) (.box b) c) p cb s z (resetOne fp cs)
        exact ⟨_, _, b3, cs3, b4, cs4, _, _, Or.inr ⟨rfl, rfl, rfl⟩, h1, h2, h3, h4, rfl⟩

/-! ## Invariants -/

theorem shifted_strip {fp : FP} {c c' : Node} (h : Shifted fp c c') : c'.strip = c.strip := by
  cases h with
  | refl => rfl
  | moved s z cb cs v => simp only [strip_mk, strips_setContent]

theorem shifted_boxed {fp : FP} {c c' : Node} (h : Shifted fp c c') (hb : AllBoxed c) : AllBoxed c' := by
  cases h with
  | refl => exact hb
  | moved s z cb cs v =>
    rw [allBoxed_mk] at hb ⊢
    exact fun hs => ⟨by simp, (Steps.moved fp .v v cb cs).boxed (hb hs).2⟩

theorem shifted_dirty {fp : FP} {c c' : Node} (h : Shifted fp c c') (hb : EveryBox Box.Dirty c) : EveryBox Box.Dirty c' := by
  cases h with
  | refl => exact hb
  | moved s z cb cs v => exact everyDirty_moved hb

theorem shifted_stale {fp : FP} {a : Axis} {c c' : Node} (h : Shifted fp c c') (hb : Stale fp a c) : Stale fp a c' := by
  cases h with
  | refl => exact hb
  | moved s z cb cs v =>
    cases hb with
    | box _ _ _ _ g => exact .box _ _ _ _ ((Steps.moved fp .v v cb cs).stale g)

theorem shifted_made {fp : FP} {a : Axis} {o c c' : Node} (h : Shifted fp c c') (hm : Made fp a o c) :
    Made fp a o c' ∧ ∀ b', c'.layout = some b' → ∃ b, c.layout = some b ∧ (b'.pos a).origin = (b.pos a).origin := by
  cases h with
  | refl => exact ⟨hm, fun b hb => ⟨b, hb, rfl⟩⟩
  | moved s z cb cs v =>
    refine ⟨made_kids.2 (kids_setContent .v v (made_kids.1 hm)), fun b' hb => ⟨cb, rfl, ?_⟩⟩
    cases hb
    exact setContent_origin ..

theorem went_strip (fp : FP) (f : Nat) : ∀ n n', Went fp f n n' → n'.strip = n.strip := by
  induction f with
  | zero => rintro n n' h; rw [show n' = n from h]
  | succ f ih =>
    rintro ⟨s, z, l, cs⟩ n' h
    simp only [Went] at h
    rcases h with ⟨_, rfl⟩ | ⟨_, b, cs0, b3, cs3, b4, cs4, b', cs', hl, h1, _, h2, h3, rfl⟩
    · simp only [strip_mk]
    · have hc : cs0.map Node.strip = cs.map Node.strip := by
        rcases hl with ⟨_, rfl⟩ | ⟨_, _, rfl⟩
        · rfl
        · exact strips_resetOne ..
      simp only [strip_mk]
      rw [h3.strips, ← hc, ← h1.strips]
      congr 1
      clear h1 h3
      replace h2 : List.Forall₂ (fun c c' => c' = c ∨ ∃ c1, Went fp f c c1 ∧ Shifted fp c1 c') cs3 cs4 :=
        h2.imp fun _ _ g => g.imp id fun ⟨c1, _, g⟩ => ⟨c1, g⟩
      induction h2 with
      | nil => rfl
      | @cons c c' cs cs' hcc _ ih' =>
        simp only [List.map_cons, ih']
        congr 1
        rcases hcc with rfl | ⟨c1, g1, g2⟩
        · rfl
        · rw [shifted_strip g2, ih _ _ g1]

theorem went_boxed (fp : FP) (f : Nat) : ∀ n n', Went fp f n n' → AllBoxed n → AllBoxed n' := by
  induction f with
  | zero => rintro n n' h hb; rw [show n' = n from h]; exact hb
  | succ f ih =>
    rintro ⟨s, z, l, cs⟩ n' h hb
    simp only [Went] at h
    rw [allBoxed_mk] at hb
    rcases h with ⟨e, rfl⟩ | ⟨e, b, cs0, b3, cs3, b4, cs4, b', cs', hl, h1, _, h2, h3, rfl⟩
    · rw [allBoxed_mk]; exact fun g => absurd e g
    · rw [allBoxed_mk]
      refine fun _ => ⟨by simp, h3.boxed ?_⟩
      have k0 : ∀ c ∈ cs0, AllBoxed c := by
        rcases hl with ⟨_, rfl⟩ | ⟨g, _, _⟩
        · exact (hb e).2
        · exact absurd g (hb e).1
      intro c4 hc4
      obtain ⟨c3, hc3, g⟩ := forall₂_left h2.flip hc4
      have k3 := h1.boxed k0 c3 hc3
      rcases g with rfl | ⟨c1, _, g1, g2⟩
      · exact k3
      · exact shifted_boxed g2 (ih _ _ g1 k3)

theorem went_dirty (fp : FP) (f : Nat) : ∀ n n', Went fp f n n' → EveryBox Box.Dirty n → EveryBox Box.Dirty n' := by
  induction f with
  | zero => rintro n n' h hb; rw [show n' = n from h]; exact hb
  | succ f ih =>
    rintro ⟨s, z, l, cs⟩ n' h hd
    simp only [Went] at h
    rw [everyBox_mk] at hd
    rcases h with ⟨_, rfl⟩ | ⟨_, b, cs0, b3, cs3, b4, cs4, b', cs', hl, h1, h2, h3, h4, rfl⟩
    · rw [everyBox_mk]
      exact ⟨fun b hb => (by cases hb), hd.2⟩
    · have hc : b.Dirty ∧ ∀ c ∈ cs0, EveryBox Box.Dirty c := by
        rcases hl with ⟨rfl, rfl⟩ | ⟨_, rfl, rfl⟩
        · exact ⟨hd.1 b rfl, hd.2⟩
        · refine ⟨rfl, ?_⟩
          simp only [resetOne, setOrigins_map, List.mem_map]
          rintro c ⟨c1, ⟨c2, hc2, rfl⟩, rfl⟩
          exact everyDirty_setOrigin _ _ _ (everyDirty_setOrigin _ _ _ (hd.2 c2 hc2))
      rw [everyBox_mk]
      refine ⟨?_, h4.dirty.2 ?_⟩
      · intro x hx
        cases hx
        exact h4.dirty.1.trans (h2.2.2.symm.trans (h1.dirty.1.trans hc.1))
      · intro c4 hc4
        obtain ⟨c3, hc3, g⟩ := forall₂_left h3.flip hc4
        have k3 := h1.dirty.2 hc.2 c3 hc3
        rcases g with rfl | ⟨c1, _, g1, g2⟩
        · exact k3
        · exact shifted_dirty g2 (ih _ _ g1 k3)

theorem went_stale (fp : FP) (a : Axis) (f : Nat) : ∀ n n', Went fp f n n' → Deep fp a n → Stale fp a n' := by
  induction f with
  | zero => rintro n n' h hb; rw [show n' = n from h]; exact hb.stale
  | succ f ih =>
    rintro ⟨s, z, l, cs⟩ n' h hd
    simp only [Went] at h
    rcases h with ⟨_, rfl⟩ | ⟨_, b, cs0, b3, cs3, b4, cs4, b', cs', hl, h1, h2, h3, h4, rfl⟩
    · exact .none _ _ _ hd.kids
    · have d0 : ∀ c ∈ cs0, Deep fp a c := by
        rcases hl with ⟨rfl, rfl⟩ | ⟨rfl, hr⟩
        · exact hd.kids
        · rw [hr.2]; exact deep_setOrigins _ _ (deep_setOrigins _ _ hd.kids)
      have d3 := h1.deep d0
      refine .box _ _ _ _ (h4.stale ?_)
      intro c4 hc4
      obtain ⟨c3, hc3, g⟩ := forall₂_left h3.flip hc4
      rcases g with rfl | ⟨c1, _, g1, g2⟩
      · exact (d3 _ hc3).stale
      · exact shifted_stale g2 (ih _ _ g1 (d3 _ hc3))

theorem went_made (fp : FP) (a : Axis) (f : Nat) : ∀ n n', Went fp f n n' → Deep fp a n →
      Made fp a n n' ∧ ∀ b', n'.layout = some b' → (∃ b, n.layout = some b ∧ (b'.pos a).origin = (b.pos a).origin) ∨
        n.layout = none ∧ (b'.pos a).origin.val = 0 := by
  induction f with
  | zero => rintro n n' h hb; rw [show n' = n from h]; exact ⟨made_refl hb, fun b hb => Or.inl ⟨b, hb, rfl⟩⟩
  | succ f ih =>
    rintro ⟨s, z, l, cs⟩ n' h hd
    simp only [Went] at h
    rcases h with ⟨_, rfl⟩ | ⟨_, b, cs0, b3, cs3, b4, cs4, b', cs', hl, h1, h2, h3, h4, rfl⟩
    · exact ⟨.none .., fun b hb => (by cases hb)⟩
    · have start : MadeKids fp a cs b cs0 ∧ (∀ c ∈ cs0, Deep fp a c) ∧ cs0.map Node.bare = cs.map Node.bare ∧
          ((∃ b1, l = some b1 ∧ (b.pos a).origin = (b1.pos a).origin) ∨ l = none ∧ (b.pos a).origin.val = 0) := by
        rcases hl with ⟨rfl, rfl⟩ | ⟨rfl, hr⟩
        · exact ⟨made_kids.1 (made_refl hd), hd.kids, rfl, Or.inl ⟨b, rfl, rfl⟩⟩
        · have e1 : b = Box.fresh := hr.1
          have e2 : cs0 = setOrigins fp .h (Box.fresh.absContent fp .h) (setOrigins fp .v (Box.fresh.absContent fp .v) cs) := hr.2
          subst e1 e2
          refine ⟨?_, deep_setOrigins _ _ (deep_setOrigins _ _ hd.kids), (bares_setOrigins ..).trans (bares_setOrigins ..), Or.inr ⟨rfl, by cases a <;> rfl⟩⟩
          intro i c oc hc ho
          rw [setOrigins_map, setOrigins_map, List.map_map, List.getElem?_map] at hc
          obtain ⟨c0, hc0, rfl⟩ := Option.map_eq_some_iff.1 hc
          rw [hc0] at ho
          cases ho
          refine ⟨made_setOrigin _ _ _ _ _ _ (made_setOrigin _ _ _ _ _ _ (made_refl (hd.kids _ (List.mem_of_getElem? hc0)))), fun cb hcb => Or.inl ?_⟩
          cases a with
          | h => exact setOrigin_layout _ _ _ _ hcb
          | v =>
            obtain ⟨b0, hb0, e'⟩ := (setOrigin_other fp (a := .h) (a' := .v) (by simp) _ _).2 cb hcb
            rw [e']
            exact setOrigin_layout _ _ _ _ hb0
      obtain ⟨k0, d0, e0, o0⟩ := start
      have k3 := h1.kids k0
      have d3 := h1.deep d0
      have e3 := h1.bares.trans e0
      have k4 : MadeKids fp a cs b4 cs4 := by
        intro i c4 oc hc4 ho
        obtain ⟨hlen, hget⟩ := List.forall₂_iff_get.1 h3
        have hi : i < cs4.length := (List.getElem?_eq_some_iff.1 hc4).1
        have hi3 : i < cs3.length := by omega
        have hc3 : cs3[i]? = some cs3[i] := List.getElem?_eq_getElem hi3
        obtain ⟨m3, q3⟩ := k3 i _ oc hc3 ho
        have hl := hget i hi3 hi
        have e4 : cs4.get ⟨i, hi⟩ = c4 := by rw [List.getElem?_eq_getElem hi] at hc4; exact Option.some.inj hc4
        rw [e4] at hl
        have hbare : (cs3[i]).bare = oc.bare := by
          have := congrArg (fun l => l[i]?) e3
          simp only [List.getElem?_map, hc3, ho, Option.map_some, Option.some.injEq] at this
          exact this
        rw [Box.absContent, ← h2.pos.pos a]
        rcases hl with hl | ⟨c1, _, g1, g2⟩
        · subst hl; exact ⟨m3, q3⟩
        · obtain ⟨j1, j2⟩ := ih _ _ g1 (d3 _ (List.getElem_mem hi3))
          obtain ⟨r1, r2⟩ := shifted_made g2 (j1.bare hbare)
          refine ⟨r1, fun cb hcb => ?_⟩
          obtain ⟨cb1, hcb1, e⟩ := r2 cb hcb
          rw [e]
          rcases j2 cb1 hcb1 with ⟨bb0, g3, g4⟩ | ⟨g3, g4⟩
          · rw [g4]; exact q3 bb0 g3
          · exact Or.inr ⟨(bare_layout hbare).1 g3, g4⟩
      refine ⟨made_kids.2 (h4.kids k4), ?_⟩
      intro x hx
      cases hx
      have e : (b'.pos a).origin = (b.pos a).origin := by
        rw [(h4.coh (a := a) (s := s) (z := z)).1, ← h2.pos.pos a, (h1.coh (a := a) (s := s) (z := z)).1]
      rw [e]
      exact o0

theorem shifted_coh {fp : FP} {a : Axis} {c c' : Node} (h : Shifted fp c c') (hc : Coh fp a c) :
    Coh fp a c' ∧ ∀ b', c'.layout = some b' → ∃ b, c.layout = some b ∧ (b'.pos a).origin = (b.pos a).origin := by
  cases h with
  | refl => exact ⟨hc, fun b hb => ⟨b, hb, rfl⟩⟩
  | moved s z cb cs v =>
    refine ⟨setContent_coh _ _ _ _ _ _ _ _ hc, fun b' hb => ⟨cb, rfl, ?_⟩⟩
    cases hb
    exact setContent_origin ..

theorem went_coh (fp : FP) (a : Axis) (f : Nat) : ∀ n n', Went fp f n n' → AllBoxed n → Coh fp a n →
      Coh fp a n' ∧ ∀ b', n'.layout = some b' → ∃ b, n.layout = some b ∧ (b'.pos a).origin = (b.pos a).origin := by
  induction f with
  | zero => rintro n n' h _ hc; rw [show n' = n from h]; exact ⟨hc, fun b hb => ⟨b, hb, rfl⟩⟩
  | succ f ih =>
    rintro ⟨s, z, l, cs⟩ n' h hbx hco
    simp only [Went] at h
    rcases h with ⟨_, rfl⟩ | ⟨hs, b, cs0, b3, cs3, b4, cs4, b', cs', hl, h1, h2, h3, h4, rfl⟩
    · exact ⟨.none .., fun b hb => (by cases hb)⟩
    · obtain ⟨hl0, hkids⟩ := allBoxed_mk.1 hbx hs
      rcases hl with ⟨rfl, rfl⟩ | ⟨rfl, _⟩
      swap
      · exact absurd rfl hl0
      have c3 := (h1.coh (a := a) (s := s) (z := z)).2 hco
      have c4 : Coh fp a (.mk s z (some b4) cs4) := by
        refine coh_same h2.pos (b := b3) (s := s) (z := z) ?_
        have bx3 := h1.boxed hkids
        cases c3 with
        | box _ _ _ _ o3 k3 =>
          have : ∀ c ∈ cs4, (∀ cb, c.layout = some cb → (cb.pos a).origin.val = (b3.absContent fp a).val) ∧ Coh fp a c := by
            intro x hx
            obtain ⟨c, hc, g⟩ := forall₂_left h3.flip hx
            have e1 := o3 c hc
            have e2 := k3 c hc
            have e3 := bx3 c hc
            rcases g with rfl | ⟨c1, _, g1, g2⟩
            · exact ⟨e1, e2⟩
            · obtain ⟨q1, q2⟩ := ih _ _ g1 e3 e2
              obtain ⟨r1, r2⟩ := shifted_coh g2 q1
              refine ⟨fun cb hcb => ?_, r1⟩
              obtain ⟨b1, hb1, he1⟩ := r2 cb hcb
              obtain ⟨b0, hb0, he⟩ := q2 b1 hb1
              rw [he1, he]
              exact e1 b0 hb0
          exact .box _ _ _ _ (fun c hc => (this c hc).1) fun c hc => (this c hc).2
      refine ⟨(h4.coh).2 c4, ?_⟩
      intro x hx
      cases hx
      refine ⟨b, rfl, ?_⟩
      rw [(h4.coh (a := a) (s := s) (z := z)).1, ← h2.pos.pos a, (h1.coh (a := a) (s := s) (z := z)).1]

theorem forall₂_with_left {α β : Type} {P : α → Prop} {R : α → β → Prop} {xs : List α} {ys : List β} (hp : ∀ x ∈ xs, P x)
    (h : List.Forall₂ R xs ys) : List.Forall₂ (fun x y => P x ∧ R x y) xs ys := by
  induction h with
  | nil => exact .nil
  | @cons x y _ _ h _ ih => exact .cons ⟨hp x List.mem_cons_self, h⟩ (ih fun z hz => hp z (List.mem_cons_of_mem _ hz))

theorem shifted_shape {fp : FP} {c c' : Node} (h : Shifted fp c c') (v : Bool) : Shape v c c' := by
  cases h with
  | refl => exact Shape.refl c v
  | moved s z cb cs x => exact shape_of_kids (Steps.moved fp .v x cb cs).shape v

theorem went_shape (fp : FP) (f : Nat) : ∀ n n', Went fp f n n' → AllBoxed n → Shape true n n' := by
  induction f with
  | zero => rintro n n' h _; rw [show n' = n from h]; exact Shape.refl n true
  | succ f ih =>
    rintro ⟨s, z, l, cs⟩ n' h hbx
    simp only [Went] at h
    rcases h with ⟨hs, rfl⟩ | ⟨hs, b, cs0, b3, cs3, b4, cs4, b', cs', hl, h1, h2, h3, h4, rfl⟩
    · exact .hidden ((hidden_iff s).2 hs) rfl
    · obtain ⟨hl0, hkids⟩ := allBoxed_mk.1 hbx hs
      rcases hl with ⟨rfl, rfl⟩ | ⟨rfl, _⟩
      swap
      · exact absurd rfl hl0
      have bx3 := h1.boxed hkids
      have k34 : Shape true (.mk s z (some b3) cs3) (.mk s z (some b4) cs4) := by
        refine alike_boxed trivial ?_
        have h3 := forall₂_with_left bx3 h3
        refine h3.imp fun c c' ⟨e3, g⟩ => ?_
        rcases g with rfl | ⟨c1, gv, g1, g2⟩
        · exact Shape.refl _ _
        · rw [gv]
          exact (ih _ _ g1 e3).trans (shifted_shape g2 true)
      exact ((shape_of_kids h1.shape true).trans k34).trans (shape_of_kids h4.shape true)

/-! ## `layout` -/

theorem finish_cases (fp : FP) (d : Display) (html5 : Bool) (n : Node) : (n.layout = none ∧ (runFinish fp d html5 n).1 = n) ∨
    ∃ s z b cs b' cs', n = .mk s z (some b) cs ∧ (runFinish fp d html5 n).1 = .mk s z (some b') cs' ∧ Steps fp b cs b' cs' := by
  rcases n with ⟨s, z, _ | b, cs⟩
  · exact Or.inl ⟨rfl, rfl⟩
  · have h := outcome_finish fp d html5 (.mk s z (some b) cs)
    have h : finishRoot fp d html5 (.mk s z (some b) cs) = .ok (runFinish fp d html5 (.mk s z (some b) cs)).1 := h.symm
    exact Or.inr (finishRoot_steps h)

/-- What a layout leaves, whether it returns or raises: nothing happened because there was no box, or it was cut short, or it came to the end. -/
theorem runLayout_went (fp : FP) (d : Display) (html5 : Bool) (p : Option CSS) (n : Node) :
    (n.layout = none ∧ (runLayout fp d html5 p n).1 = n) ∨ (n.layout ≠ none ∧ ∃ m, Went fp n.depth (n.reset fp) m ∧
      ((runLayout fp d html5 p n).1 = m ∨ ∃ s z b cs b' cs', m = .mk s z (some b) cs ∧ (runLayout fp d html5 p n).1 = .mk s z (some b') cs' ∧
        Steps fp b cs b' cs')) := by
  unfold runLayout
  rcases hl : n.layout with _ | b
  · exact Or.inl ⟨rfl, rfl⟩
  · refine Or.inr ⟨by simp, ?_⟩
    have g := runBox_went fp d n.depth p (.viewport d) (n.reset fp)
    refine ⟨_, g, ?_⟩
    simp only
    rcases e : runBox fp d n.depth p (.viewport d) (n.reset fp) with ⟨m, _ | x⟩
    · rcases finish_cases fp d html5 m with ⟨_, h⟩ | h
      · exact Or.inl h
      · exact Or.inr h
    · exact Or.inl rfl

theorem runLayout_strip (fp : FP) (d : Display) (html5 : Bool) (p : Option CSS) (n : Node) : (runLayout fp d html5 p n).1.strip = n.strip := by
  rcases runLayout_went fp d html5 p n with ⟨_, e⟩ | ⟨_, m, h, e | ⟨s, z, b, cs, b', cs', rfl, e, hs⟩⟩
  · rw [e]
  · rw [e, went_strip fp _ _ _ h, strip_reset]
  · rw [e, ← strip_reset fp n, ← went_strip fp _ _ _ h, strip_mk, strip_mk, hs.strips]

theorem runLayout_boxed {fp : FP} {d : Display} {html5 : Bool} {p : Option CSS} {n : Node} (hb : AllBoxed n) : AllBoxed (runLayout fp d html5 p n).1 := by
  rcases runLayout_went fp d html5 p n with ⟨_, e⟩ | ⟨_, m, h, e | ⟨s, z, b, cs, b', cs', rfl, e, hs⟩⟩
  · rw [e]; exact hb
  · rw [e]; exact went_boxed fp _ _ _ h (allBoxed_reset fp hb)
  · have := went_boxed fp _ _ _ h (allBoxed_reset fp hb)
    rw [e]
    rw [allBoxed_mk] at this ⊢
    exact fun g => ⟨by simp, hs.boxed (this g).2⟩

theorem runLayout_dirty {fp : FP} {d : Display} {html5 : Bool} {p : Option CSS} {n : Node} (hb : DirtyDown n) (hl : n.layout ≠ none) :
    EveryBox Box.Dirty (runLayout fp d html5 p n).1 := by
  rcases runLayout_went fp d html5 p n with ⟨e, _⟩ | ⟨_, m, h, e | ⟨s, z, b, cs, b', cs', rfl, e, hs⟩⟩
  · exact absurd e hl
  · rw [e]; exact went_dirty fp _ _ _ h (reset_dirty hb)
  · have := went_dirty fp _ _ _ h (reset_dirty hb)
    rw [e]
    rw [everyBox_mk] at this ⊢
    refine ⟨fun x hx => ?_, hs.dirty.2 this.2⟩
    cases hx
    exact hs.dirty.1.trans (this.1 b rfl)

theorem runLayout_stale {fp : FP} {a : Axis} {d : Display} {html5 : Bool} {p : Option CSS} {n : Node} (hb : Stale fp a n) :
    Stale fp a (runLayout fp d html5 p n).1 := by
  rcases runLayout_went fp d html5 p n with ⟨_, e⟩ | ⟨_, m, h, e | ⟨s, z, b, cs, b', cs', rfl, e, hs⟩⟩
  · rw [e]; exact hb
  · rw [e]; exact went_stale fp a _ _ _ h (deep_reset hb)
  · have := went_stale fp a _ _ _ h (deep_reset hb)
    rw [e]
    cases this with
    | box _ _ _ _ g => exact .box _ _ _ _ (hs.stale g)

theorem runLayout_made {fp : FP} {a : Axis} {d : Display} {html5 : Bool} {p : Option CSS} {n : Node} (hb : Stale fp a n) (hl : n.layout ≠ none) :
    Made fp a n (runLayout fp d html5 p n).1 ∧ ∀ b, (runLayout fp d html5 p n).1.layout = some b → (b.pos a).origin = .int 0 := by
  have root : ∀ m, Went fp n.depth (n.reset fp) m → ∀ b, m.layout = some b → (b.pos a).origin = .int 0 := by
    intro m h b hb'
    rcases (went_made fp a _ _ _ h (deep_reset hb)).2 b hb' with ⟨b0, hb0, he⟩ | ⟨e, _⟩
    · rw [reset_root hl] at hb0
      cases hb0
      rw [he]
      cases a <;> rfl
    · rw [reset_root hl] at e; cases e
  rcases runLayout_went fp d html5 p n with ⟨e, _⟩ | ⟨_, m, h, e | ⟨s, z, b, cs, b', cs', rfl, e, hs⟩⟩
  · exact absurd e hl
  · rw [e]
    exact ⟨(went_made fp a _ _ _ h (deep_reset hb)).1.bare (bare_resetFuel ..), root m h⟩
  · rw [e]
    refine ⟨made_kids.2 (hs.kids (made_kids.1 ((went_made fp a _ _ _ h (deep_reset hb)).1.bare (bare_resetFuel ..)))), fun x hx => ?_⟩
    cases hx
    rw [(hs.coh (a := a) (s := s) (z := z)).1]
    exact root _ h b rfl

theorem runLayout_shape {fp : FP} {d : Display} {html5 : Bool} {p : Option CSS} {n : Node} (hb : AllBoxed n) :
    Shape true n (runLayout fp d html5 p n).1 := by
  rcases runLayout_went fp d html5 p n with ⟨_, e⟩ | ⟨_, m, h, e | ⟨s, z, b, cs, b', cs', rfl, e, hs⟩⟩
  · rw [e]; exact Shape.refl n true
  · rw [e]; exact (shape_reset fp n true).trans (went_shape fp _ _ _ h (allBoxed_reset fp hb))
  · rw [e]; exact ((shape_reset fp n true).trans (went_shape fp _ _ _ h (allBoxed_reset fp hb))).trans (shape_of_kids hs.shape true)

theorem runLayout_coherent {fp : FP} {d : Display} {html5 : Bool} {p : Option CSS} {n : Node} (hb : AllBoxed n) (hl : n.layout ≠ none)
    (a : Axis) : Coherent fp a (runLayout fp d html5 p n).1 ∧
      ∀ b, (runLayout fp d html5 p n).1.layout = some b → (b.pos a).origin = .int 0 := by
  have root : ∀ m, Went fp n.depth (n.reset fp) m → Coh fp a m ∧ ∀ b, m.layout = some b → (b.pos a).origin = .int 0 := by
    intro m h
    obtain ⟨g1, g2⟩ := went_coh fp a _ _ _ h (allBoxed_reset fp hb) (coh_iff.2 (reset_coherent fp a n))
    refine ⟨g1, fun b hb => ?_⟩
    obtain ⟨b0, hb0, he⟩ := g2 b hb
    rw [reset_root hl] at hb0
    cases hb0
    rw [he]
    cases a <;> rfl
  rcases runLayout_went fp d html5 p n with ⟨e, _⟩ | ⟨_, m, h, e | ⟨s, z, b, cs, b', cs', rfl, e, hs⟩⟩
  · exact absurd e hl
  · rw [e]; exact ⟨coh_iff.1 (root m h).1, (root m h).2⟩
  · rw [e]
    obtain ⟨g1, g2⟩ := root _ h
    refine ⟨coh_iff.1 ((hs.coh).2 g1), fun x hx => ?_⟩
    cases hx
    rw [(hs.coh (a := a) (s := s) (z := z)).1]
    exact g2 b rfl

theorem runLayout_of_ok {fp : FP} {d : Display} {html5 : Bool} {p : Option CSS} {n n' : Node} (h : layout fp d html5 p n = .ok n') :
    runLayout fp d html5 p n = (n', none) := by
  rw [← runLayout_out] at h
  rcases e : runLayout fp d html5 p n with ⟨m, _ | x⟩
  · rw [e] at h; cases h; rfl
  · rw [e] at h; cases h

theorem went_rootDirty {fp : FP} {f : Nat} {n n' : Node} (h : Went fp f n n') (hd : ∀ b, n.layout = some b → b.Dirty) :
    ∀ b, n'.layout = some b → b.Dirty := by
  cases f with
  | zero => rw [show n' = n from h]; exact hd
  | succ f =>
    obtain ⟨s, z, l, cs⟩ := n
    simp only [Went] at h
    rcases h with ⟨_, rfl⟩ | ⟨_, b, cs0, b3, cs3, b4, cs4, b', cs', hl, h1, h2, h3, h4, rfl⟩
    · intro b hb; cases hb
    · intro x hx
      cases hx
      refine h4.dirty.1.trans (h2.2.2.symm.trans (h1.dirty.1.trans ?_))
      rcases hl with ⟨rfl, _⟩ | ⟨_, rfl, _⟩
      · exact hd b rfl
      · rfl

theorem runLayout_down (fp : FP) (d : Display) (html5 : Bool) (p : Option CSS) : KeepsDown fun n => (runLayout fp d html5 p n).1 := by
  intro n hn
  by_cases hl : n.layout = none
  · rcases runLayout_went fp d html5 p n with ⟨_, e⟩ | ⟨h, _⟩
    · simp only [e]; exact hn
    · exact absurd hl h
  · exact dirtyDown_of_all (runLayout_dirty hn hl)

theorem runLayout_noClean (fp : FP) (d : Display) (html5 : Bool) (p : Option CSS) : NoClean fun n => (runLayout fp d html5 p n).1 := by
  intro n hn b hb
  rcases runLayout_went fp d html5 p n with ⟨_, e⟩ | ⟨hl, m, h, e | ⟨s, z, b0, cs, b', cs', rfl, e, hs⟩⟩
  · simp only [e] at hb; exact hn b hb
  · simp only [e] at hb
    refine went_rootDirty h (fun b hb => ?_) b hb
    rw [reset_root hl] at hb; cases hb; rfl
  · simp only [e] at hb
    cases hb
    refine hs.dirty.1.trans (went_rootDirty h (fun b hb => ?_) b0 rfl)
    rw [reset_root hl] at hb; cases hb; rfl

end Colosseum
