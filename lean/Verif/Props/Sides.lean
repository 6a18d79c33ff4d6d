import Verif.Lemmas.Acts
import Verif.Props.Style
import Verif.Spec.Shorthand

/-!
# Four-sided properties: C27, C28

Helper lemmas are in `Verif/Lemmas/Acts.lean` and `Verif/Lemmas/Relabel.lean`.
-/

namespace Colosseum

/-! ## C27 -/

/-- How CSS distributes one to four values over the sides of a box. A value that is no tuple goes to
every side. -/
inductive FourSides : Val → (Side → Val) → Prop
  | single (v : Val) : (∀ xs, v ≠ .seq true xs) → FourSides v fun _ => v
  | one (a : Val) : FourSides (.seq true [a]) fun _ => a
  | two (a b : Val) : FourSides (.seq true [a, b]) fun
      | .top => a | .right => b | .bottom => a | .left => b
  | three (a b c : Val) : FourSides (.seq true [a, b, c]) fun
      | .top => a | .right => b | .bottom => c | .left => b
  | four (a b c d : Val) : FourSides (.seq true [a, b, c, d]) fun
      | .top => a | .right => b | .bottom => c | .left => d

/-- The value is `w` in a state when the property reads as `w`. -/
def Decl.Reads (d : Decl) (p : LH) (w : Val) : Prop := d.css.read p = .ok w

theorem setDir_sides {E : Env} {at_ : List Nat} {d : Decl} {k : Dir} {v : Val} {f : Side → Val}
    (h : FourSides v f) : d.setDir E at_ k v = runActs E (sideActs at_ k f) d := by
  rw [← setSides_acts]
  cases h with
  | single v hv =>
    unfold Decl.setDir
    split <;> first | exact absurd rfl (hv _) | rfl
  | _ => rfl

theorem fourSides_or (v : Val) : (∃ f, FourSides v f) ∨ ∃ xs, v = .seq true xs ∧ (xs.length = 0 ∨ 4 < xs.length) := by
  by_cases hv : ∃ xs, v = .seq true xs
  · obtain ⟨xs, rfl⟩ := hv
    match xs with
    | [] => exact Or.inr ⟨_, rfl, Or.inl rfl⟩
    | [a] => exact Or.inl ⟨_, .one a⟩
    | [a, b] => exact Or.inl ⟨_, .two a b⟩
    | [a, b, c] => exact Or.inl ⟨_, .three a b c⟩
    | [a, b, c, d] => exact Or.inl ⟨_, .four a b c d⟩
    | _ :: _ :: _ :: _ :: _ :: _ => exact Or.inr ⟨_, rfl, Or.inr (by simp)⟩
  · push Not at hv
    exact Or.inl ⟨_, .single v hv⟩

theorem setDir_length {E : Env} {at_ : List Nat} {d : Decl} {k : Dir} {xs : List Val}
    (h : xs.length = 0 ∨ 4 < xs.length) : d.setDir E at_ k (.seq true xs) = (d, some .value) := by
  match xs with
  | [] => rfl
  | [a] | [a, b] | [a, b, c] | [a, b, c, d] => simp at h
  | _ :: _ :: _ :: _ :: _ :: _ => rfl

theorem took_reads {E : Env} {d d' : Decl} {p : LH} {w : Val} (hr : Reachable E d) (hr' : d'.css.Canon)
    (h : Took d.css d'.css p w) :
    d'.Reads p w ∨ (d'.css p = d.css p ∧ ∃ u, d.Reads p u ∧ w.pyEq u = true) := by
  rcases h with h | ⟨h1, h2, _⟩
  · refine Or.inl ?_
    rw [Decl.Reads, read_value hr', CSS.value, h]
    rfl
  · exact Or.inr ⟨h1, _, read_value (canon_reachable hr) p, h2⟩

/-- C27. In every reachable state, a successful assignment to a four-sided property has given each side
the value CSS prescribes: the side reads as the parsed form of that value, or is left alone because what
it reads as already equals it. Nothing else is stored or removed. -/
theorem C27_sides (E : Env) (at_ : List Nat) (d d' : Decl) (hr : Reachable E d) (k : Dir) (v : Val)
    (h : d.setAttr E at_ (.dir k) v = (d', none)) :
    ∃ f, FourSides v f ∧
      (∀ s, ∃ a w, Accepts E a (k.side s) (f s) w ∧
        (d'.Reads (k.side s) w ∨ (d'.css (k.side s) = d.css (k.side s) ∧
          ∃ u, d.Reads (k.side s) u ∧ w.pyEq u = true))) ∧
      ∀ q, (∀ s, q ≠ k.side s) → d'.css q = d.css q := by
  have h : d.setDir E at_ k v = (d', none) := h
  rcases fourSides_or v with ⟨f, hf⟩ | ⟨xs, rfl, hx⟩
  · refine ⟨f, hf, ?_⟩
    have hc' : d'.css.Canon := by
      have := (canon_stable E).setDir (at_ := at_) k v (canon_reachable hr)
      rwa [h] at this
    rw [setDir_sides hf] at h
    obtain ⟨hd, ho⟩ := runActs_done (sideActs_nodup at_ k f) (sideActs_follows at_ k f) h
    refine ⟨fun s => ?_, fun q hq => ho q ?_⟩
    · obtain ⟨a, ha⟩ := sideActs_mem at_ k f s
      obtain ⟨w, hw, ht⟩ := hd _ ha
      exact ⟨a, w, (validate_iff ..).1 hw, took_reads hr hc' ht⟩
    · intro hm
      simp only [sideActs, List.map_cons, Act.prop, List.map_nil, List.mem_cons, List.not_mem_nil, or_false] at hm
      rcases hm with hm | hm | hm | hm <;> exact hq _ hm
  · rw [setDir_length hx] at h
    cases h

/-- C27, when it succeeds: on a node that is unbound or has a box, exactly when there are one to four
values (or a value that is no tuple) and every side accepts its value. -/
theorem C27_succeeds (E : Env) (at_ : List Nat) (d : Decl) (k : Dir) (v : Val) (hl : d.link ≠ .noBox) :
    (∃ d', d.setAttr E at_ (.dir k) v = (d', none)) ↔
      ∃ f, FourSides v f ∧ ∀ s, ∃ a w, Accepts E a (k.side s) (f s) w := by
  constructor
  · rintro ⟨d', h⟩
    have h : d.setDir E at_ k v = (d', none) := h
    rcases fourSides_or v with ⟨f, hf⟩ | ⟨xs, rfl, hx⟩
    · refine ⟨f, hf, fun s => ?_⟩
      rw [setDir_sides hf] at h
      obtain ⟨hd, _⟩ := runActs_done (sideActs_nodup at_ k f) (sideActs_follows at_ k f) h
      obtain ⟨a, ha⟩ := sideActs_mem at_ k f s
      obtain ⟨w, hw, _⟩ := hd _ ha
      exact ⟨a, w, (validate_iff ..).1 hw⟩
    · rw [setDir_length hx] at h
      cases h
  · rintro ⟨f, hf, hs⟩
    have fine : ∀ a ∈ sideActs at_ k f, a.Fine E := by
      have key : ∀ s l, (Act.set l (k.side s) (f s)).Fine E := by
        intro s l
        obtain ⟨a, w, hw⟩ := hs s
        obtain ⟨w', hw', _⟩ := validate_ok_relabel (b := l) ((validate_iff ..).2 hw)
        exact ⟨w', hw'⟩
      intro a ha
      simp only [sideActs, List.mem_cons, List.not_mem_nil, or_false] at ha
      rcases ha with rfl | rfl | rfl | rfl <;> exact key _ _
    obtain ⟨d', h, _⟩ := runActs_succeeds (d := d) hl fine
    refine ⟨d', ?_⟩
    show d.setDir E at_ k v = (d', none)
    rw [setDir_sides hf, h]

/-- C27, the getter: the four sides in the order top, right, bottom, left. -/
theorem C27_getter (E : Env) (d : Decl) (hr : Reachable E d) (k : Dir) :
    ∃ f : Side → Val, (∀ s, d.Reads (k.side s) (f s)) ∧
      d.css.readDir k = .ok (f .top, f .right, f .bottom, f .left) := by
  have hc := canon_reachable hr
  refine ⟨fun s => d.css.value (k.side s), fun s => read_value hc _, ?_⟩
  simp only [CSS.readDir, read_value hc]
  rfl

/-- `margin = (1, 2, 3)` on a fresh declaration. -/
example (E : Env) : ∃ d', (Decl.mk CSS.empty .unbound).setAttr E [] (.dir .margin)
      (.seq true [.num (.fin (.int 1)), .num (.fin (.int 2)), .num (.fin (.int 3))]) = (d', none) ∧
    d'.css.readDir .margin = .ok (.unit ⟨.len .px, .fin (.int 1)⟩, .unit ⟨.len .px, .fin (.int 2)⟩,
      .unit ⟨.len .px, .fin (.int 3)⟩, .unit ⟨.len .px, .fin (.int 2)⟩) := ⟨_, rfl, rfl⟩

/-! ## C28 -/

/-- C28. Full statement: if assigning to a four-sided property raises, no side has changed. What is
missing: tuples whose first value is accepted and a later one is not (see `C28_false`), and nodes without
a box. -/
theorem C28_rejected_partial (E : Env) (at_ : List Nat) (d d' : Decl) (k : Dir) (v : Val) (e : Err)
    (h : d.setAttr E at_ (.dir k) v = (d', some e)) (hl : d.link ≠ .noBox)
    (hv : ∀ x y ys, v = .seq true (x :: y :: ys) → ¬ ∃ a w, Accepts E a (k.side .top) x w) : d' = d := by
  have h : d.setDir E at_ k v = (d', some e) := h
  -- a first assignment that raises changes nothing
  have first : ∀ (f : Side → Val), (¬ ∃ a w, Accepts E a (k.side .top) (f .top) w) →
      runActs E (sideActs at_ k f) d = (d', some e) → d' = d := by
    intro f hf hr
    rw [sideActs, runActs, Act.run] at hr
    rcases set_cases E (0 :: at_) d (k.side .top) (f .top) with ⟨_, _, _, hs⟩ | ⟨w, hw, _, _⟩ | ⟨w, hw, _, _⟩
    · rw [hs] at hr; cases hr; rfl
    · exact absurd ⟨_, w, (validate_iff ..).1 hw⟩ hf
    · exact absurd ⟨_, w, (validate_iff ..).1 hw⟩ hf
  -- the same value everywhere is accepted everywhere or nowhere
  have same : ∀ x : Val, runActs E (sideActs at_ k fun _ => x) d = (d', some e) → d' = d := by
    intro x hr
    by_cases hx : ∃ a w, Accepts E a (k.side .top) x w
    · exfalso
      obtain ⟨a, w, hw⟩ := hx
      have fine : ∀ b ∈ sideActs at_ k fun _ => x, b.Fine E := by
        have ch : ∀ s, (k.side s).choices = (k.side .top).choices := by intro s; cases k <;> rfl
        have key : ∀ s l, (Act.set l (k.side s) x).Fine E := by
          intro s l
          obtain ⟨w', hw', _⟩ := validate_ok_relabel (b := l) ((validate_iff ..).2 hw)
          exact ⟨w', by rw [ch]; exact hw'⟩
        intro b hb
        simp only [sideActs, List.mem_cons, List.not_mem_nil, or_false] at hb
        rcases hb with rfl | rfl | rfl | rfl <;> exact key _ _
      obtain ⟨d2, h2, _⟩ := runActs_succeeds (d := d) hl fine
      rw [h2] at hr
      cases hr
    · exact first _ hx hr
  rcases fourSides_or v with ⟨f, hf⟩ | ⟨xs, rfl, hx⟩
  · rw [setDir_sides hf] at h
    cases hf with
    | single => exact same _ h
    | one => exact same _ h
    | two a b => exact first _ (hv _ _ _ rfl) h
    | three a b c => exact first _ (hv _ _ _ rfl) h
    | four a b c d => exact first _ (hv _ _ _ rfl) h
  · rw [setDir_length hx] at h
    cases h; rfl

/-- A value that is rejected, assigned to a declaration with margins: the exception, and no side has changed. -/
example (E : Env) : ∃ d, Reachable E d ∧ d.link ≠ .noBox ∧ d.css.read (.margin .left) = .ok (.unit ⟨.len .px, .fin (.int 7)⟩) ∧
    d.setAttr E [] (.dir .margin) (.str (lit "bad")) = (d, some .value) ∧ d.setAttr E [] (.dir .margin) (.seq true []) = (d, some .value) :=
  ⟨_, ⟨[.setAttr (.dir .margin) (.num (.fin (.int 7)))], rfl⟩, nofun, rfl, rfl, rfl⟩

/-- What a failing four-sided assignment does in general: the sides before the first rejected one (in the
order top, right, bottom, left) are assigned, the rejected one and the later ones are not touched. -/
theorem C28_prefix (E : Env) (at_ : List Nat) (d d' : Decl) (k : Dir) (v : Val) (e : Err)
    (h : d.setAttr E at_ (.dir k) v = (d', some e)) (hl : d.link ≠ .noBox) :
    d' = d ∨ ∃ f pre s post, FourSides v f ∧ [Side.top, .right, .bottom, .left] = pre ++ s :: post ∧
      (¬ ∃ a w, Accepts E a (k.side s) (f s) w) ∧
      (∀ t ∈ pre, ∃ a w, Accepts E a (k.side t) (f t) w ∧ Took d.css d'.css (k.side t) w) ∧
      ∀ q, (∀ t ∈ pre, q ≠ k.side t) → d'.css q = d.css q := by
  have h : d.setDir E at_ k v = (d', some e) := h
  rcases fourSides_or v with ⟨f, hf⟩ | ⟨xs, rfl, hx⟩
  swap
  · rw [setDir_length hx] at h; cases h; exact Or.inl rfl
  refine Or.inr ?_
  rw [setDir_sides hf] at h
  obtain ⟨pre, a, post, d1, hsplit, h1, h2⟩ := runActs_stops h
  have hn := sideActs_nodup at_ k f
  have hfo := sideActs_follows at_ k f
  rw [hsplit] at hn hfo
  have hn' : (pre.map Act.prop).Nodup := by
    rw [List.map_append] at hn
    exact (List.nodup_append.1 hn).1
  obtain ⟨hd, ho⟩ := runActs_done hn' (fun x hx y hy => hfo x (by simp [hx]) y (by simp [hy])) h1
  have hl1 : d1.link ≠ .noBox := by
    have : ∀ (as : List Act) (d : Decl), d.link ≠ .noBox → (runActs E as d).1.link ≠ .noBox := by
      intro as
      induction as with
      | nil => exact fun _ h => h
      | cons b bs ih =>
        intro d hd
        exact Stable.andThen (P := fun d => d.link ≠ .noBox) (act_link b hd) fun d h => ih d h
    have := this pre d hl
    rwa [h1] at this
  -- the list of acts is the image of the list of sides
  have himg : ∃ l : Side → List Nat, sideActs at_ k f =
      [Side.top, .right, .bottom, .left].map fun s => Act.set (l s) (k.side s) (f s) :=
    ⟨fun | .top => 0 :: at_ | .right => 1 :: at_ | .bottom => 2 :: at_ | .left => 3 :: at_, rfl⟩
  obtain ⟨l, himg⟩ := himg
  rw [hsplit] at himg
  obtain ⟨ps, r, hpr, hps, hr⟩ := List.map_eq_append_iff.1 himg.symm
  obtain ⟨s, qs, hsq, hs, _⟩ := List.map_eq_cons_iff.1 hr
  refine ⟨f, ps, s, qs, hf, by rw [hpr, hsq], ?_, ?_, ?_⟩
  · rintro ⟨b, w, hw⟩
    obtain ⟨w', hw', _⟩ := validate_ok_relabel (b := l s) ((validate_iff ..).2 hw)
    obtain ⟨d2, h3⟩ := set_succeeds hl1 hw'
    rw [← hs] at h2
    simp only [Act.run] at h2
    rw [h3] at h2
    cases h2
  · have hcss : d'.css = d1.css := by
      rw [← hs] at h2
      simp only [Act.run] at h2
      rcases set_cases E (l s) d1 (k.side s) (f s) with ⟨_, _, _, h3⟩ | ⟨_, _, _, h3⟩ | ⟨w, hw, _, h3⟩
      · rw [h3] at h2; cases h2; rfl
      · rw [h3] at h2; cases h2
      · rw [h3] at h2
        have := markDirty_css { d1 with css := d1.css.store (k.side s) w }
        have := (mark_link (d := { d1 with css := d1.css.store (k.side s) w }) hl1).2
        rw [h2] at this
        cases this
    intro t ht
    obtain ⟨w, hw, htk⟩ := hd (.set (l t) (k.side t) (f t)) (by rw [← hps]; exact List.mem_map_of_mem ht)
    refine ⟨l t, w, (validate_iff ..).1 hw, ?_⟩
    rw [hcss]
    exact htk
  · have hcss : d'.css = d1.css := by
      rw [← hs] at h2
      simp only [Act.run] at h2
      rcases set_cases E (l s) d1 (k.side s) (f s) with ⟨_, _, _, h3⟩ | ⟨_, _, _, h3⟩ | ⟨w, hw, _, h3⟩
      · rw [h3] at h2; cases h2; rfl
      · rw [h3] at h2; cases h2
      · rw [h3] at h2
        have := (mark_link (d := { d1 with css := d1.css.store (k.side s) w }) hl1).2
        rw [h2] at this
        cases this
    intro q hq
    rw [hcss]
    refine ho q ?_
    rw [← hps, List.map_map]
    intro hm
    obtain ⟨t, ht, rfl⟩ := List.mem_map.1 hm
    exact hq t ht rfl

/-- The right side is rejected: the top is assigned, the others keep their values. -/
example (E : Env) : ∃ d d', Reachable E d ∧ d.link ≠ .noBox ∧
    d.setAttr E [] (.dir .margin) (.seq true [.num (.fin (.int 1)), .str (lit "bad")]) = (d', some .value) ∧
    d'.css.readDir .margin = .ok (.unit ⟨.len .px, .fin (.int 1)⟩, .unit ⟨.len .px, .fin (.int 7)⟩, .unit ⟨.len .px, .fin (.int 7)⟩, .unit ⟨.len .px, .fin (.int 7)⟩) :=
  ⟨_, _, ⟨[.setAttr (.dir .margin) (.num (.fin (.int 7)))], rfl⟩, nofun, rfl, rfl⟩

/-- C28 is false: `margin = (1, 2, 3, "bad")` raises `ValueError` and leaves three sides assigned. -/
theorem C28_false (E : Env) : ∃ d d', Reachable E d ∧
    d.setAttr E [0] (.dir .margin) (.seq true [.num (.fin (.int 1)), .num (.fin (.int 2)), .num (.fin (.int 3)),
      .str (lit "bad")]) = (d', some .value) ∧
    d.css.read (.margin .top) = .ok (.unit ⟨.len .px, .fin (.int 0)⟩) ∧
    d'.css.read (.margin .top) = .ok (.unit ⟨.len .px, .fin (.int 1)⟩) :=
  ⟨_, _, ⟨[], rfl⟩, rfl, rfl, rfl⟩

end Colosseum
