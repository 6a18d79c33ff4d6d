import Verif.Lemmas.Stops

/-!
# Which exceptions come from where
-/

namespace Colosseum

/-- Neither `NotImplementedError` nor `Exception` itself is raised. -/
structure Mundane {α : Type} (x : Res α) : Prop where
  out : ∀ e, x = .error e → e ≠ .notImplemented ∧ e ≠ .generic

theorem mundane_ok {α : Type} (a : α) : Mundane (.ok a : Res α) := ⟨nofun⟩

theorem mundane_pure {α : Type} (a : α) : Mundane (pure a : Res α) := ⟨nofun⟩

theorem mundane_bind {α β : Type} {x : Res α} {f : α → Res β} (hx : Mundane x) (hf : ∀ a, Mundane (f a)) : Mundane (x >>= f) := by
  refine ⟨fun e h => ?_⟩
  cases hq : x with
  | error e' =>
    rw [hq] at h
    cases h
    exact hx.out _ hq
  | ok a =>
    rw [hq] at h
    exact (hf a).out e h

theorem mundane_map {α β : Type} {x : Res α} {f : α → β} (hx : Mundane x) : Mundane (x.map f) := by
  refine ⟨fun e h => ?_⟩
  cases hq : x with
  | error e' =>
    rw [hq] at h
    cases h
    exact hx.out _ hq
  | ok a => rw [hq] at h; cases h

theorem mundane_type {α : Type} : Mundane (.error .type : Res α) := ⟨by rintro e h; cases h; exact ⟨nofun, nofun⟩⟩
theorem mundane_attribute {α : Type} : Mundane (.error .attribute : Res α) := ⟨by rintro e h; cases h; exact ⟨nofun, nofun⟩⟩
theorem mundane_overflow {α : Type} : Mundane (.error .overflow : Res α) := ⟨by rintro e h; cases h; exact ⟨nofun, nofun⟩⟩
theorem mundane_value {α : Type} : Mundane (.error .value : Res α) := ⟨by rintro e h; cases h; exact ⟨nofun, nofun⟩⟩

theorem mundane_round (x : PyNum) : Mundane x.round := by
  unfold PyNum.round
  split
  · exact mundane_ok _
  · exact mundane_overflow
  · exact mundane_value

theorem mundane_lu (fp : FP) (k : LKind) (val : PyNum) (c : PxCtx) : Mundane (luOf fp k val c) := by
  unfold luOf luScaled luViewport
  split <;> first | exact mundane_round _ | skip
  split
  · exact mundane_type
  · exact mundane_round _

theorem mundane_px (fp : FP) (v : Val) (c : PxCtx) : Mundane (v.px fp c) := by
  unfold Val.px
  split
  · unfold CUnit.px
    split
    · unfold pxOf
      refine ⟨fun e h => ?_⟩
      split at h
      · rename_i e' he
        cases h
        exact (mundane_lu _ _ _ _).out _ he
      · cases h
    · exact mundane_attribute
  · exact mundane_attribute

theorem mundane_need {α : Type} (x : Option α) : Mundane (need x) := by
  cases x with
  | none => exact mundane_type
  | some a => exact mundane_ok a

theorem mundane_num (m : MVal) : Mundane m.toNum := by
  cases m with
  | num n => exact mundane_ok n
  | auto => exact mundane_type

theorem mundane_size (fp : FP) (v : Val) (c : PxCtx) : Mundane (calculateSize fp v c) := by
  unfold calculateSize
  repeat' split
  all_goals first | exact mundane_ok _ | exact mundane_map (mundane_px ..)

theorem mundane_edge (fp : FP) (v : Val) (c : PxCtx) : Mundane (calculateEdge fp v c) :=
  mundane_bind (mundane_size ..) fun _ => mundane_num _

theorem mundane_copy (fp : FP) (s : CSS) (hz vt : PxCtx) (b : Box) : Mundane (copyEdges fp s hz vt b) := by
  unfold copyEdges
  iterate 4 refine mundane_bind (mundane_size ..) fun _ => ?_
  iterate 8 refine mundane_bind (mundane_edge ..) fun _ => ?_
  exact mundane_pure _

theorem mundane_left (fp : FP) (b : Box) (cs : List Node) : Mundane (placeLeft fp b cs) :=
  mundane_bind (mundane_num _) fun _ => mundane_pure _

theorem mundane_top (fp : FP) (b : Box) (cs : List Node) : Mundane (placeTopInline fp b cs) :=
  mundane_bind (mundane_num _) fun _ => mundane_pure _

theorem mundane_replacedWidth (fp : FP) (s : CSS) (z : Intrinsic) (c : PxCtx) (b : Box) (cs : List Node) :
    Mundane (inlineReplacedWidth fp s z c b cs) := by
  unfold inlineReplacedWidth
  refine mundane_bind ?_ fun _ => mundane_left ..
  unfold inlineReplacedContentWidth
  split
  · split
    · split
      · exact mundane_ok _
      · exact mundane_ok _
      · exact mundane_bind (mundane_need _) fun _ => mundane_bind (mundane_num _) fun _ => mundane_bind (mundane_num _) fun _ => mundane_pure _
      · exact mundane_ok _
    · split <;> exact mundane_ok _
  · exact mundane_px ..

theorem mundane_clamped (fp : FP) (s : CSS) (c : PxCtx) : Mundane (clampedWidth fp s c) := by
  unfold clampedWidth
  have tail : ∀ w : Num, Mundane (if (s.get .minWidth).isKw "auto" = true then (pure w : Res Num)
      else do
        let m ← (s.get .minWidth).px fp c
        pure (if w.pyLt m = true then m else w)) := by
    intro w
    split
    · exact mundane_pure _
    · exact mundane_bind (mundane_px ..) fun _ => mundane_pure _
  refine mundane_bind (mundane_px ..) fun w => ?_
  dsimp only
  split
  · exact mundane_bind (mundane_pure _) fun w => tail w
  · exact mundane_bind (mundane_px ..) fun _ => mundane_bind (mundane_pure _) fun w => tail w

theorem mundane_blockWidth (fp : FP) (s : CSS) (c : PxCtx) (b : Box) (cs : List Node) : Mundane (blockWidth fp s c b cs) := by
  unfold blockWidth
  split
  · exact mundane_bind (mundane_need _) fun _ => mundane_bind (mundane_num _) fun _ => mundane_bind (mundane_num _) fun _ => mundane_left ..
  · exact mundane_bind (mundane_clamped ..) fun _ => mundane_bind (mundane_need _) fun _ => mundane_left ..

theorem mundane_replacedHeight (fp : FP) (s : CSS) (z : Intrinsic) (c : PxCtx) (b : Box) (cs : List Node) :
    Mundane (inlineReplacedHeight fp s z c b cs) := by
  unfold inlineReplacedHeight
  refine mundane_bind ?_ fun _ => mundane_top ..
  unfold inlineReplacedContentHeight
  split
  · split
    · exact mundane_ok _
    · split
      · exact mundane_bind (mundane_need _) fun _ => mundane_bind (mundane_need _) fun _ => mundane_pure _
      · split
        · exact mundane_need _
        · exact mundane_bind (mundane_need _) fun _ => mundane_pure _
  · exact mundane_px ..

theorem mundane_explicit (fp : FP) (s : CSS) (parent : Option CSS) (c : PxCtx) : Mundane (explicitHeight fp s parent c) := by
  unfold explicitHeight
  have tail : ∀ h : Num, Mundane (if (s.get .maxHeight).isNone = true then (pure h : Res Num)
      else do
        let m ← (s.get .maxHeight).px fp c
        pure (if m.pyLt h = true then m else h)) := by
    intro w
    split
    · exact mundane_pure _
    · exact mundane_bind (mundane_px ..) fun _ => mundane_pure _
  dsimp only
  split
  · split
    · exact mundane_bind (mundane_px ..) fun h => tail h
    · exact mundane_bind (mundane_px ..) fun _ => mundane_bind (mundane_px ..) fun h => tail h
  · exact mundane_bind (mundane_px ..) fun h => tail h

theorem mundane_blockHeight (fp : FP) (s : CSS) (parent : Option CSS) (c : PxCtx) (b : Box) (cs : List Node) :
    Mundane (blockHeight fp s parent c b cs) := by
  unfold blockHeight
  refine mundane_bind ?_ fun _ => mundane_pure _
  unfold blockContentHeight
  split
  · split
    · split
      · exact mundane_attribute
      · exact mundane_bind (mundane_need _) fun _ => mundane_pure _
    · split
      · exact mundane_pure _
      · exact mundane_bind (mundane_px ..) fun _ => mundane_pure _
  · exact mundane_bind (mundane_explicit ..) fun _ => mundane_pure _

theorem mundane_relative (fp : FP) (s : CSS) (cb : CB) (hz vt : PxCtx) (b : Box) (cs : List Node) : Mundane (applyRelative fp s cb hz vt b cs) := by
  have off : ∀ (a : Axis) (v w : Val) (c : PxCtx), Mundane (relativeOffset fp cb a v w c) := by
    intro a v w c
    have stop : Mundane (cb.contentEnd fp a) := by
      unfold CB.contentEnd
      split
      · exact mundane_attribute
      · split <;> exact mundane_need _
    have start : Mundane (cb.contentStart a) := by
      unfold CB.contentStart
      split
      · exact mundane_attribute
      · exact mundane_ok _
    unfold relativeOffset
    split
    · exact mundane_ok _
    split
    · split
      · exact mundane_map stop
      · exact mundane_map (mundane_px ..)
    · split
      · split
        · exact start
        · exact mundane_px ..
      · exact mundane_px ..
  unfold applyRelative
  split
  · exact mundane_bind (off ..) fun _ => mundane_bind (off ..) fun _ => mundane_pure _
  · exact mundane_pure _

/-- What the widths or the heights of an element may raise. -/
def Blames (m : Node) (e : Err) : Prop := (e = .notImplemented → m.Unsupported) ∧ (e = .generic → m.Foreign ∧ ¬ m.Unsupported)

theorem blames_mundane {α : Type} {x : Res α} {m : Node} {e : Err} (h : Mundane x) (he : x = .error e) : Blames m e :=
  ⟨fun h' => absurd h' (h.out e he).1, fun h' => absurd h' (h.out e he).2⟩

theorem unsupported_float {s : CSS} {z : Intrinsic} {l : Option Box} {ks : List Node} (h : isFloat s = true) : (Node.mk s z l ks).Unsupported := by
  refine Or.inl fun e => ?_
  have e : s.get .float = .none := e
  unfold isFloat at h
  rw [e] at h
  cases h

theorem unsupported_absolute {s : CSS} {z : Intrinsic} {l : Option Box} {ks : List Node} (h : isAbsolute s = true) : (Node.mk s z l ks).Unsupported := by
  unfold isAbsolute at h
  simp only [Bool.or_eq_true, isKw_iff] at h
  rcases h with h | h
  · exact Or.inr (Or.inl h)
  · exact Or.inr (Or.inr (Or.inl h))

theorem blames_refused {m : Node} (h : m.Unsupported) : Blames m .notImplemented := ⟨fun _ => h, nofun⟩

theorem blames_unknown {s : CSS} {z : Intrinsic} {l : Option Box} {ks : List Node} (h1 : ¬ isFloat s = true) (h2 : ¬ isAbsolute s = true)
    (h3 : ¬ isInline s = true) (h4 : ¬ isBlockLevel s = true) (h5 : ¬ isInlineBlock s = true) : Blames (.mk s z l ks) .generic := by
  refine ⟨nofun, fun _ => ?_⟩
  have f1 : s.get .display ≠ kw "inline" := fun h => h3 ((isKw_iff _ _).2 h)
  have f2 : ¬ (Node.mk s z l ks).BlockLevel := fun h => h4 ((blockLevel_iff (.mk s z l ks)).2 h)
  have f3 : s.get .display ≠ kw "inline-block" := fun h => h5 ((isKw_iff _ _).2 h)
  refine ⟨⟨f1, f2, f3⟩, ?_⟩
  rintro (h | h | h | h | h)
  · have : s.get .float = .none := by
      unfold isFloat at h1
      simp only [Bool.not_eq_true', Bool.not_eq_false] at h1
      exact isNone_eq (by simpa using h1)
    exact h this
  · exact h2 (by unfold isAbsolute; rw [(isKw_iff (s.get .position) _).2 h]; rfl)
  · exact h2 (by unfold isAbsolute; rw [(isKw_iff (s.get .position) "fixed").2 h, Bool.or_true])
  · exact f2 h.1
  · exact f3 h

theorem width_blames {fp : FP} {s : CSS} {z : Intrinsic} {c : PxCtx} {b : Box} {cs : List Node} {e : Err} (l : Option Box) (ks : List Node)
    (h : widthAndMargins fp s z c b cs = .error e) : Blames (.mk s z l ks) e := by
  unfold widthAndMargins at h
  split at h
  · cases h; exact blames_refused (unsupported_float ‹_›)
  split at h
  · cases h; exact blames_refused (unsupported_absolute ‹_›)
  split at h
  · split at h
    · exact blames_mundane (mundane_replacedWidth ..) h
    · cases h
  split at h
  · split at h
    · cases h
      rename_i hb hr
      exact blames_refused (Or.inr (Or.inr (Or.inr (Or.inl ⟨(blockLevel_iff (.mk s z l ks)).1 hb, hr⟩))))
    · exact blames_mundane (mundane_blockWidth ..) h
  split at h
  · cases h
    rename_i hb
    exact blames_refused (Or.inr (Or.inr (Or.inr (Or.inr ((isKw_iff (s.get .display) _).1 hb)))))
  · cases h
    exact blames_unknown ‹_› ‹_› ‹_› ‹_› ‹_›

theorem height_blames {fp : FP} {s : CSS} {z : Intrinsic} {p : Option CSS} {c : PxCtx} {b : Box} {cs : List Node} {e : Err} (l : Option Box)
    (ks : List Node) (h : heightAndMargins fp s z p c b cs = .error e) : Blames (.mk s z l ks) e := by
  unfold heightAndMargins at h
  split at h
  · cases h; exact blames_refused (unsupported_float ‹_›)
  split at h
  · cases h; exact blames_refused (unsupported_absolute ‹_›)
  split at h
  · split at h
    · exact blames_mundane (mundane_replacedHeight ..) h
    · exact blames_mundane (mundane_top ..) h
  split at h
  · split at h
    · cases h
      rename_i hb hr
      exact blames_refused (Or.inr (Or.inr (Or.inr (Or.inl ⟨(blockLevel_iff (.mk s z l ks)).1 hb, hr⟩))))
    · exact blames_mundane (mundane_blockHeight ..) h
  split at h
  · cases h
    rename_i hb
    exact blames_refused (Or.inr (Or.inr (Or.inr (Or.inr ((isKw_iff (s.get .display) _).1 hb)))))
  · cases h
    exact blames_unknown ‹_› ‹_› ‹_› ‹_› ‹_›

/-- A loop fails because of one of the elements, or with an `AttributeError` or a `TypeError`. -/
theorem inlineLoop_blames {lay : Node → Res Node} {cs : List Node} {e : Err} (h : inlineLoop lay cs = .error e) : ∃ c ∈ cs, lay c = .error e := by
  induction cs with
  | nil => cases h
  | cons c cs ih =>
    simp only [inlineLoop] at h
    split at h
    · cases h
      exact ⟨c, List.mem_cons_self, ‹_›⟩
    split at h
    · cases h
      rename_i e' he
      obtain ⟨x, hx, hl⟩ := ih he
      exact ⟨x, List.mem_cons_of_mem _ hx, hl⟩
    · cases h

theorem blockLoop_blames {fp : FP} {lay : Box → Node → Res Node} {xs : List Container} {e : Err} : ∀ {b : Box} {off : Num} {bm : Option Int},
    blockLoop fp lay b off bm xs = .error e → (∃ c b', .node c ∈ xs ∧ lay b' c = .error e) ∨ e ≠ .notImplemented ∧ e ≠ .generic := by
  induction xs with
  | nil => intro b off bm h; cases h
  | cons x xs ih =>
    intro b off bm h
    cases x with
    | anon ns =>
      simp only [blockLoop] at h
      cases h
      exact Or.inr ⟨nofun, nofun⟩
    | node c =>
      simp only [blockLoop] at h
      split at h
      · cases h
        exact Or.inl ⟨c, b, List.mem_cons_self, ‹_›⟩
      split at h
      · cases h
        rename_i e' he
        refine Or.inr ?_
        unfold stackChild at he
        split at he
        · refine (mundane_bind (x := collapseAbove _ _ _ _ _) ?_ fun _ => mundane_bind (mundane_need _) fun _ => mundane_pure _).out _ he
          unfold collapseAbove
          split
          · exact mundane_ok _
          · exact mundane_bind (mundane_num _) fun _ => mundane_pure _
        · cases he; exact ⟨nofun, nofun⟩
      split at h
      · cases h
        rename_i e' he
        rcases ih he with ⟨k, b', hk, hl⟩ | h'
        · exact Or.inl ⟨k, b', List.mem_cons_of_mem _ hk, hl⟩
        · exact Or.inr h'
      · cases h

theorem anonymize_blocky {c : Node} {cs : List Node} (h : .node c ∈ anonymize cs) : c ∈ cs ∧ isBlockLevel c.style = true := by
  have key : ∀ (cs : List Node) (p : Option (List Node)), .node c ∈ anonymizeLoop p cs → c ∈ cs ∧ isBlockLevel c.style = true := by
    intro cs
    induction cs with
    | nil => intro p h; cases p <;> cases h
    | cons x cs ih =>
      intro p h
      simp only [anonymizeLoop] at h
      split at h
      · rename_i hb
        split at h
        · rcases List.mem_cons.1 h with h | h
          · cases h
          rcases List.mem_cons.1 h with h | h
          · cases h; exact ⟨List.mem_cons_self, hb⟩
          · exact ⟨List.mem_cons_of_mem _ (ih _ h).1, (ih _ h).2⟩
        · rcases List.mem_cons.1 h with h | h
          · cases h; exact ⟨List.mem_cons_self, hb⟩
          · exact ⟨List.mem_cons_of_mem _ (ih _ h).1, (ih _ h).2⟩
      · split at h
        · exact ⟨List.mem_cons_of_mem _ (ih _ h).1, (ih _ h).2⟩
        · exact ⟨List.mem_cons_of_mem _ (ih _ h).1, (ih _ h).2⟩
  exact key cs none h

/-- Something that the layout comes to is to blame. -/
def Blamed (n : Node) (e : Err) : Prop :=
  (e = .notImplemented → ∃ m, Reached m n ∧ ¬ m.Hidden ∧ m.Unsupported) ∧
  (e = .generic → ∃ m, Reached m n ∧ ¬ m.Hidden ∧ m.Foreign ∧ ¬ m.Unsupported)

theorem blamed_here {n : Node} {e : Err} (hh : ¬ n.Hidden) (h : Blames n e) : Blamed n e :=
  ⟨fun he => ⟨n, .here n, hh, h.1 he⟩, fun he => ⟨n, .here n, hh, h.2 he⟩⟩

theorem blamed_strip {n n' : Node} {e : Err} (en : n.strip = n'.strip) (h : Blamed n e) : Blamed n' e := by
  constructor
  · intro he
    obtain ⟨m, h1, h2, h3⟩ := h.1 he
    obtain ⟨m', k1, k2⟩ := reached_same en h1
    have e := stops_same k2
    exact ⟨m', k1, mt e.1.1 h2, e.2.1.2 h3⟩
  · intro he
    obtain ⟨m, h1, h2, h3, h4⟩ := h.2 he
    obtain ⟨m', k1, k2⟩ := reached_same en h1
    have e := stops_same k2
    exact ⟨m', k1, mt e.1.1 h2, e.2.2.1.2 h3, mt e.2.1.1 h4⟩

theorem layoutBox_error {fp : FP} {d : Display} {f : Nat} {p : Option CSS} {cb : CB} {s : CSS} {z : Intrinsic} {l : Option Box} {cs : List Node} {e : Err}
    (h : layoutBox fp d (f + 1) p cb (.mk s z l cs) = .error e) : ∃ b cs0, ¬ (Node.mk s z l cs).Hidden ∧ cs0.map Node.strip = cs.map Node.strip ∧
      layoutBody fp d (fun b n => layoutBox fp d f (some s) (.box b) n) p cb s z b cs0 = .error e := by
  have hh : ¬ (Node.mk s z l cs).Hidden := by
    intro hh
    rw [layoutBox_hidden ((hidden_iff s).2 hh)] at h
    cases h
  have hn : (s.get .display).isNone = false := by
    cases hq : (s.get .display).isNone with
    | false => rfl
    | true => exact absurd ((hidden_iff s).1 hq) hh
  cases l with
  | some b =>
    simp only [layoutBox, hn, Bool.false_eq_true, if_false] at h
    refine ⟨b, cs, hh, rfl, ?_⟩
    split at h
    · cases h; assumption
    · cases h
  | none =>
    simp only [layoutBox, hn, Bool.false_eq_true, if_false] at h
    refine ⟨(resetOne fp cs).1, (resetOne fp cs).2, hh, strips_resetOne .., ?_⟩
    split at h
    · cases h; assumption
    · cases h

theorem layoutBox_blames (fp : FP) (d : Display) (f : Nat) : ∀ (p : Option CSS) (cb : CB) (n : Node) (e : Err), layoutBox fp d f p cb n = .error e →
    Blamed n e := by
  induction f with
  | zero => intro p cb n e h; cases h; exact ⟨nofun, nofun⟩
  | succ f ih =>
    rintro p cb ⟨s, z, l, cs⟩ e h
    obtain ⟨b, cs0, hh, hstr0, hb⟩ := layoutBox_error h
    unfold layoutBody at hb
    dsimp only at hb
    cases h1 : copyEdges fp s ⟨d, dummyFont fp, cb.width⟩ ⟨d, dummyFont fp, cb.height⟩ b with
    | error e1 =>
      rw [h1] at hb
      cases hb
      exact blamed_here hh (blames_mundane (mundane_copy ..) h1)
    | ok b1 =>
    rw [bind_of_ok h1] at hb
    cases h2 : widthAndMargins fp s z ⟨d, dummyFont fp, cb.width⟩ b1 cs0 with
    | error e1 =>
      rw [h2] at hb
      cases hb
      exact blamed_here hh (width_blames _ _ h2)
    | ok r2 =>
    obtain ⟨b2, cs2⟩ := r2
    rw [bind_of_ok h2] at hb
    cases h3 : relativeHeight fp s z p ⟨d, dummyFont fp, cb.height⟩ b2 cs2 with
    | error e1 =>
      dsimp only at hb
      rw [h3] at hb
      cases hb
      unfold relativeHeight at h3
      split at h3
      · exact blamed_here hh (height_blames _ _ h3)
      · cases h3
    | ok r3 =>
    obtain ⟨b3, cs3⟩ := r3
    dsimp only at hb
    rw [bind_of_ok h3] at hb
    dsimp only at hb
    split at hb
    · cases hb
      exact blamed_here hh (blames_refused (unsupported_absolute ‹_›))
    split at hb
    · cases hb
      exact blamed_here hh (blames_refused (unsupported_float ‹_›))
    have hstr : cs3.map Node.strip = cs.map Node.strip := by rw [(relativeHeight_steps h3).strips, (width_steps h2).strips, hstr0]
    have e3 : (Node.mk s z l cs3).strip = (Node.mk s z l cs).strip := by rw [strip_mk, strip_mk, hstr]
    have hh3 : ¬ (Node.mk s z l cs3).Hidden := mt (stops_same e3).1.1 hh
    cases h4 : layoutChildren fp (fun b n => layoutBox fp d f (some s) (.box b) n) s z b3 cs3 with
    | error e1 =>
      rw [h4] at hb
      cases hb
      refine blamed_strip e3 ?_
      have below : ∀ c ∈ cs3, ((Node.mk s z l cs3).BlockContext → c.BlockLevel) → Blamed c e → Blamed (.mk s z l cs3) e := by
        intro c hc hbc hbl
        constructor
        · intro he
          obtain ⟨m, k1, k2⟩ := hbl.1 he
          exact ⟨m, .step hh3 hc hbc k1, k2⟩
        · intro he
          obtain ⟨m, k1, k2⟩ := hbl.2 he
          exact ⟨m, .step hh3 hc hbc k1, k2⟩
      unfold layoutChildren at h4
      split at h4
      · rename_i hi
        split at h4
        · cases h4
          rename_i he
          obtain ⟨c, hc, hl⟩ := inlineLoop_blames he
          exact below c hc (fun hbc => by rw [← blockContext_iff, hi] at hbc; cases hbc) (ih _ _ _ _ hl)
        · cases h4
      · split at h4
        · cases h4
          rename_i he
          rcases blockLoop_blames he with ⟨c, b', hc, hl⟩ | ⟨k1, k2⟩
          · obtain ⟨hc1, hc2⟩ := anonymize_blocky hc
            exact below c hc1 (fun _ => (blockLevel_iff c).1 hc2) (ih _ _ _ _ hl)
          · exact ⟨fun h => absurd h k1, fun h => absurd h k2⟩
        · cases h4
    | ok r4 =>
    obtain ⟨b4, cs4⟩ := r4
    rw [bind_of_ok h4] at hb
    dsimp only at hb
    cases h5 : heightAndMargins fp s z p ⟨d, dummyFont fp, cb.height⟩ b4 cs4 with
    | error e1 =>
      rw [h5] at hb
      cases hb
      exact blamed_here hh (height_blames _ _ h5)
    | ok r5 =>
    obtain ⟨b5, cs5⟩ := r5
    rw [bind_of_ok h5] at hb
    exact blamed_here hh (blames_mundane (mundane_relative ..) hb)

theorem layout_blames {fp : FP} {d : Display} {html5 : Bool} {p : Option CSS} {n : Node} {e : Err} (h : layout fp d html5 p n = .error e) : Blamed n e := by
  unfold layout at h
  split at h
  · cases h; exact ⟨nofun, nofun⟩
  split at h
  · cases h
    rename_i he
    exact blamed_strip (strip_reset fp n) (layoutBox_blames fp d _ _ _ _ _ he)
  · unfold finishRoot at h
    split at h
    · cases h; exact ⟨nofun, nofun⟩
    · cases h

end Colosseum
