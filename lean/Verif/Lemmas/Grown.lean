import Verif.Lemmas.Mirror

/-!
# Lemmas: growth and enlargement
-/

namespace Colosseum

variable {fp : FP} {d d' : Display}

/-! ## Growth -/

theorem grown_pixels {v v' : Val} (h : v.Grown fp d v') : Option.Rel (· ≤ ·) (v.pixels fp d) (v'.pixels fp d) := by
  rcases h with rfl | ⟨x, x', h, h', hx⟩
  · cases v'.pixels fp d with
    | none => exact .none
    | some x => exact .some le_rfl
  · rw [pixels_length h, pixels_length h']
    exact .some hx

theorem rel_getD {a b : Option Rat} (h : Option.Rel (· ≤ ·) a b) : a.getD 0 ≤ b.getD 0 := by
  cases h with
  | none => exact le_rfl
  | some h => exact h

theorem whole_length {v : Val} {i : Int} (h : v.Length fp d (dummyFont fp) (.int i)) : v.whole fp d = i := by
  obtain ⟨k, val, rfl, _, h⟩ := h
  unfold Val.whole
  have : (Val.unit ⟨.len k, val⟩).px fp ⟨d, dummyFont fp, none⟩ = .ok (.int i) := h
  rw [this]

theorem grownWhole_grown {v v' : Val} (h : v.GrownWhole fp d v') : v.Grown fp d v' :=
  h.imp id fun ⟨i, i', h, h', e⟩ => ⟨_, _, h, h', by simp only [Num.val_int]; exact_mod_cast e⟩

theorem grown_whole {v v' : Val} (h : v.GrownWhole fp d v') : v.whole fp d ≤ v'.whole fp d := by
  rcases h with rfl | ⟨i, i', h, h', e⟩
  · exact le_rfl
  · rw [whole_length h, whole_length h']
    exact e

theorem length_not_kw {v : Val} {x : Num} {s : String} (h : v.Length fp d (dummyFont fp) x) : v.isKw s = false := by
  obtain ⟨k, val, rfl, _⟩ := h
  rfl

theorem grown_isKw {v v' : Val} (s : String) (h : v.Grown fp d v') : v'.isKw s = v.isKw s := by
  rcases h with rfl | ⟨x, x', h, h', _⟩
  · rfl
  · rw [length_not_kw h, length_not_kw h']

theorem grown_edge {s s' : CSS} (h : s.Grown fp d s') {t : Side} (ht : t = .top ∨ t = .bottom) : s.edge fp d t ≤ s'.edge fp d t := by
  unfold CSS.edge
  refine add_le_add ?_ (rel_getD (grown_pixels (h.padding t ht)))
  have b := h.border t ht
  unfold CSS.bordered
  simp only [grown_isKw _ b]
  split
  · exact le_rfl
  split
  · exact le_rfl
  split
  · exact le_rfl
  · exact rel_getD (grown_pixels b)

theorem grown_edgeTop : ∀ {n n' : Node}, n.Along (CSS.Grown fp d) n' → n.edgeTop fp d ≤ n'.edgeTop fp d
  | .mk s z l [], .mk s' z' l' [], h => by
    rw [Node.edgeTop, Node.edgeTop]
    exact max_le_max le_rfl (grown_whole (h.1.margin _ (.inl rfl)))
  | .mk s z l (c :: cs), .mk s' z' l' (c' :: cs'), h => by
    rw [Node.edgeTop, Node.edgeTop]
    exact max_le_max (max_le_max le_rfl (grown_whole (h.1.margin _ (.inl rfl)))) (grown_edgeTop h.2.1)
  | .mk _ _ _ [], .mk _ _ _ (_ :: _), h => h.2.elim
  | .mk _ _ _ (_ :: _), .mk _ _ _ [], h => h.2.elim

mutual
theorem grown_edgeBottom : ∀ {n n' : Node}, n.Along (CSS.Grown fp d) n' → n.edgeBottom fp d ≤ n'.edgeBottom fp d
  | .mk s z l cs, .mk s' z' l' cs', h => by
    rw [Node.edgeBottom, Node.edgeBottom, grown_isKw "auto" (h.1.size _ (.inl rfl))]
    refine max_le_max (max_le_max le_rfl (grown_whole (h.1.margin _ (.inr rfl)))) ?_
    split
    · exact grown_lastBottom h.2
    · exact le_rfl
theorem grown_lastBottom : ∀ {cs cs' : List Node}, Alongs (CSS.Grown fp d) cs cs' → lastBottom fp d cs ≤ lastBottom fp d cs'
  | [], [], _ => le_rfl
  | [c], [c'], h => by rw [lastBottom, lastBottom]; exact grown_edgeBottom h.1
  | _ :: c :: cs, _ :: c' :: cs', h => by rw [lastBottom, lastBottom]; exact grown_lastBottom h.2
  | [_], _ :: _ :: _, h => h.2.elim
  | _ :: _ :: _, [_], h => h.2.elim
end

theorem grown_between {c c' e e' : Node} (h : c.Along (CSS.Grown fp d) c') (k : e.Along (CSS.Grown fp d) e') :
    between fp d c e ≤ between fp d c' e' := by
  unfold between CSS.outside
  refine max_le_max ?_ (rel_getD (grown_pixels (grownWhole_grown ((along_style k).margin _ (.inl rfl)))))
  exact_mod_cast grown_edgeBottom h

theorem grown_limited {s s' : CSS} (h : s.Grown fp d s') {x y : Rat} (hx : x ≤ y) :
    limited none ((s.get .maxHeight).pixels fp d) x ≤ limited none ((s'.get .maxHeight).pixels fp d) y := by
  unfold limited
  rcases h.most with m | m
  · have := grown_pixels m
    generalize (s.get .maxHeight).pixels fp d = a at this ⊢
    generalize (s'.get .maxHeight).pixels fp d = b at this ⊢
    cases this with
    | none => exact hx
    | some h => exact min_le_min hx h
  · rw [m, pixels_none]
    cases (s.get .maxHeight).pixels fp d with
    | none => exact hx
    | some h => exact le_trans (min_le_left _ _) hx

/-- The height of the content. -/
theorem grown_content {s s' : CSS} (h : s.Grown fp d s') {e e' : Bool} (he : e' = e) {x y : Rat} (hx : x ≤ y) :
    (match (s.get .height).pixels fp d with
      | some h => limited none ((s.get .maxHeight).pixels fp d) h
      | none => if e then ((s.get .minHeight).pixels fp d).getD 0 else x) ≤
    (match (s'.get .height).pixels fp d with
      | some h => limited none ((s'.get .maxHeight).pixels fp d) h
      | none => if e' then ((s'.get .minHeight).pixels fp d).getD 0 else y) := by
  subst he
  have := grown_pixels (h.size _ (.inl rfl))
  generalize (s.get .height).pixels fp d = a at this ⊢
  generalize (s'.get .height).pixels fp d = b at this ⊢
  cases this with
  | none =>
    simp only
    split
    · exact rel_getD (grown_pixels (h.size _ (.inr rfl)))
    · exact hx
  | some k => exact grown_limited h k

mutual
theorem grown_tall : ∀ {n n' : Node}, n.Along (CSS.Grown fp d) n' → n.tall fp d ≤ n'.tall fp d
  | .mk s z l cs, .mk s' z' l' cs', h => by
    rw [Node.tall, Node.tall]
    exact add_le_add (add_le_add (grown_edge h.1 (.inl rfl)) (grown_content h.1 (alongs_isEmpty h.2) (grown_stack h.2))) (grown_edge h.1 (.inr rfl))
theorem grown_stack : ∀ {cs cs' : List Node}, Alongs (CSS.Grown fp d) cs cs' → stackTall fp d cs ≤ stackTall fp d cs'
  | [], [], _ => le_rfl
  | [c], [c'], h => by rw [stackTall, stackTall]; exact grown_tall h.1
  | c :: e :: cs, c' :: e' :: cs', h => by
    rw [stackTall, stackTall]
    exact add_le_add (add_le_add (grown_tall h.1) (grown_between h.1 h.2.1)) (grown_stack h.2)
  | [_], _ :: _ :: _, h => h.2.elim
  | _ :: _ :: _, [_], h => h.2.elim
end

theorem grown_contentTall {n n' : Node} (h : n.Along (CSS.Grown fp d) n') : n.contentTall fp d ≤ n'.contentTall fp d := by
  unfold Node.contentTall
  exact grown_content (along_style h) (alongs_isEmpty (along_children h)) (grown_stack (along_children h))

theorem grown_topAt : ∀ {cs cs' : List Node}, Alongs (CSS.Grown fp d) cs cs' → ∀ i, topAt fp d cs i ≤ topAt fp d cs' i
  | c :: e :: cs, c' :: e' :: cs', h, i + 1 => by
    rw [topAt, topAt]
    exact add_le_add (add_le_add (grown_tall h.1) (grown_between h.1 h.2.1)) (grown_topAt h.2 i)
  | _, _, _, 0 => by rw [topAt_zero, topAt_zero]
  | [], [], _, _ => le_rfl
  | [_], [_], _, _ + 1 => le_rfl
  | [_], _ :: _ :: _, h, _ => h.2.elim
  | _ :: _ :: _, [_], h, _ => h.2.elim

theorem grown_side {s s' : CSS} (h : s.Grown fp d s') {t : Side} (ht : t = .left ∨ t = .right) : s'.edge fp d t = s.edge fp d t := by
  unfold CSS.edge CSS.bordered CSS.padded
  rw [(h.sideways t ht).2.1, (h.sideways t ht).2.2]

theorem grown_outside {s s' : CSS} (h : s.Grown fp d s') {t : Side} (ht : t = .left ∨ t = .right) : s'.outside fp d t = s.outside fp d t := by
  unfold CSS.outside
  rw [(h.sideways t ht).1]

theorem grown_contentWide {s s' : CSS} (h : s.Grown fp d s') (W : Rat) : s'.contentWide fp d W = s.contentWide fp d W := by
  unfold CSS.contentWide
  rw [h.width .width (by simp), h.width .minWidth (by simp), h.width .maxWidth (by simp), grown_side h (.inl rfl), grown_side h (.inr rfl),
    grown_outside h (.inl rfl), grown_outside h (.inr rfl)]

theorem grown_wide {s s' : CSS} (h : s.Grown fp d s') (W : Rat) : s'.wide fp d W = s.wide fp d W := by
  unfold CSS.wide
  rw [grown_contentWide h, grown_side h (.inl rfl), grown_side h (.inr rfl)]

theorem grown_shift {s s' : CSS} (h : s.Grown fp d s') (W : Rat) : s'.shift fp d W = s.shift fp d W := by
  unfold CSS.shift
  rw [h.width .width (by simp), h.width .direction (by simp), grown_wide h, grown_outside h (.inl rfl), grown_outside h (.inr rfl)]

/-- The same sides; the second one is not higher up. -/
structure Region.Lower (f g : Region) : Prop where
  left : g.left = f.left
  width : g.width = f.width
  top : f.top ≤ g.top
  contentTop : f.contentTop ≤ g.contentTop

/-- The second one is not smaller. -/
structure Region.Taller (f g : Region) : Prop where
  height : f.contentHeight ≤ g.contentHeight
  bottom : f.top + f.height ≤ g.top + g.height

theorem grown_regionAt (q : List Nat) : ∀ {n n' : Node} {W x y y' : Rat}, n.Along (CSS.Grown fp d) n' → y ≤ y' →
    Option.Rel (fun f g => Region.Lower f g ∧ Region.Taller f g) (n.regionAt fp d W x y q) (n'.regionAt fp d W x y' q) := by
  induction q with
  | nil =>
    intro n n' W x y y' h hy
    have hs := along_style h
    rw [Node.regionAt, Node.regionAt]
    refine .some ⟨⟨?_, grown_wide hs W, hy, add_le_add hy (grown_edge hs (.inl rfl))⟩, ?_, add_le_add hy (grown_tall h)⟩
    · simp only [Node.region]
      rw [grown_shift hs]
    · simp only [Node.region]
      rw [tall_eq, tall_eq]
      have := grown_contentTall h
      linarith
  | cons i q ih =>
    intro n n' W x y y' h hy
    have hs := along_style h
    rw [Node.regionAt, Node.regionAt]
    cases hc : n.children[i]? with
    | none =>
      rw [(along_none h).1 hc]
      exact .none
    | some c =>
      cases hc' : n'.children[i]? with
      | none =>
        rw [(along_none h).2 hc'] at hc
        cases hc
      | some c' =>
        simp only [Option.bind_some]
        rw [grown_contentWide hs, grown_shift hs, grown_side hs (.inl rfl)]
        exact ih (along_kid h hc hc') (add_le_add (add_le_add hy (grown_edge hs (.inl rfl))) (grown_topAt (along_children h) i))

/-! ## Enlargement -/

variable {k : Nat}

theorem scaled_pixels {v v' : Val} (h : v.Scaled fp d d' k v') : v'.pixels fp d' = (v.pixels fp d).map ((k : Rat) * ·) := by
  rcases h with ⟨rfl, s, rfl⟩ | ⟨rfl, rfl⟩ | ⟨i, h, h'⟩ | ⟨x, x', h, h', rfl⟩
  · rfl
  · rfl
  · rw [pixels_length h, pixels_length h']
    simp
  · rw [pixels_length h, pixels_length h']
    simp

theorem whole_flt {v : Val} {x : Rat} (h : v.Length fp d (dummyFont fp) (.flt x)) : v.whole fp d = 0 := by
  obtain ⟨k, val, rfl, _, h⟩ := h
  unfold Val.whole
  have : (Val.unit ⟨.len k, val⟩).px fp ⟨d, dummyFont fp, none⟩ = .ok (.flt x) := h
  rw [this]

theorem scaled_whole {v v' : Val} (h : v.Scaled fp d d' k v') : v'.whole fp d' = k * v.whole fp d := by
  rcases h with ⟨rfl, s, rfl⟩ | ⟨rfl, rfl⟩ | ⟨i, h, h'⟩ | ⟨x, x', h, h', rfl⟩
  · show (0 : Int) = k * 0
    simp
  · show (0 : Int) = k * 0
    simp
  · rw [whole_length h, whole_length h']
  · rw [whole_flt h, whole_flt h', mul_zero]

theorem scaled_isKw {v v' : Val} (s : String) (h : v.Scaled fp d d' k v') : v'.isKw s = v.isKw s := by
  rcases h with ⟨rfl, _⟩ | ⟨rfl, _⟩ | ⟨i, h, h'⟩ | ⟨x, x', h, h', _⟩
  · rfl
  · rfl
  · rw [length_not_kw h, length_not_kw h']
  · rw [length_not_kw h, length_not_kw h']

theorem getD_scaled (a : Option Rat) : (a.map ((k : Rat) * ·)).getD 0 = k * a.getD 0 := by
  cases a <;> simp

theorem scaled_edge (hd : d.Scaled k d') {s s' : CSS} (h : s.Scaled fp d d' k s') (t : Side) : s'.edge fp d' t = k * s.edge fp d t := by
  unfold CSS.edge CSS.padded
  rw [scaled_pixels (h.padding t), getD_scaled, mul_add]
  congr 1
  have b := h.border t
  unfold CSS.bordered
  simp only [scaled_isKw _ b, scaled_pixels b, getD_scaled]
  rw [hd.thin, hd.medium, hd.thick]
  split
  · rfl
  split
  · rfl
  split <;> rfl

theorem scaled_max (x y : Rat) : (k : Rat) * max x y = max (k * x) (k * y) := mul_max_of_nonneg _ _ (by positivity)

theorem scaled_min (x y : Rat) : (k : Rat) * min x y = min (k * x) (k * y) := mul_min_of_nonneg _ _ (by positivity)

theorem scaled_imax (x y : Int) : (k : Int) * max x y = max (k * x) (k * y) := mul_max_of_nonneg _ _ (by positivity)

theorem scaled_limited (a b : Option Rat) (x : Rat) : limited (a.map ((k : Rat) * ·)) (b.map ((k : Rat) * ·)) (k * x) = k * limited a b x := by
  unfold limited
  cases a <;> cases b <;> simp [scaled_max, scaled_min]

theorem scaled_edgeTop : ∀ {n n' : Node}, n.Along (CSS.Scaled fp d d' k) n' → n'.edgeTop fp d' = k * n.edgeTop fp d
  | .mk s z l [], .mk s' z' l' [], h => by
    rw [Node.edgeTop, Node.edgeTop, scaled_whole (h.1.margin _), scaled_imax, mul_zero]
  | .mk s z l (c :: cs), .mk s' z' l' (c' :: cs'), h => by
    rw [Node.edgeTop, Node.edgeTop, scaled_whole (h.1.margin _), scaled_imax, scaled_imax, mul_zero, scaled_edgeTop h.2.1]
  | .mk _ _ _ [], .mk _ _ _ (_ :: _), h => h.2.elim
  | .mk _ _ _ (_ :: _), .mk _ _ _ [], h => h.2.elim

mutual
theorem scaled_edgeBottom : ∀ {n n' : Node}, n.Along (CSS.Scaled fp d d' k) n' → n'.edgeBottom fp d' = k * n.edgeBottom fp d
  | .mk s z l cs, .mk s' z' l' cs', h => by
    rw [Node.edgeBottom, Node.edgeBottom, scaled_isKw "auto" (h.1.size .height (by simp)), scaled_whole (h.1.margin _), scaled_lastBottom h.2,
      scaled_imax, scaled_imax, mul_zero]
    split
    · rfl
    · rw [mul_zero]
theorem scaled_lastBottom : ∀ {cs cs' : List Node}, Alongs (CSS.Scaled fp d d' k) cs cs' → lastBottom fp d' cs' = k * lastBottom fp d cs
  | [], [], _ => by rw [lastBottom, lastBottom, mul_zero]
  | [c], [c'], h => by rw [lastBottom, lastBottom]; exact scaled_edgeBottom h.1
  | _ :: c :: cs, _ :: c' :: cs', h => by rw [lastBottom, lastBottom]; exact scaled_lastBottom h.2
  | [_], _ :: _ :: _, h => h.2.elim
  | _ :: _ :: _, [_], h => h.2.elim
end

theorem scaled_between {c c' e e' : Node} (h : c.Along (CSS.Scaled fp d d' k) c') (j : e.Along (CSS.Scaled fp d d' k) e') :
    between fp d' c' e' = k * between fp d c e := by
  unfold between CSS.outside
  rw [scaled_edgeBottom h, scaled_pixels ((along_style j).margin _), getD_scaled, scaled_max]
  push_cast
  rfl

theorem scaled_content {s s' : CSS} (h : s.Scaled fp d d' k s') {e e' : Bool} (he : e' = e) {x y : Rat} (hx : y = k * x) :
    (match (s'.get .height).pixels fp d' with
      | some h => limited none ((s'.get .maxHeight).pixels fp d') h
      | none => if e' then ((s'.get .minHeight).pixels fp d').getD 0 else y) =
    (k : Rat) * (match (s.get .height).pixels fp d with
      | some h => limited none ((s.get .maxHeight).pixels fp d) h
      | none => if e then ((s.get .minHeight).pixels fp d).getD 0 else x) := by
  subst he
  rw [scaled_pixels (h.size .height (by simp)), scaled_pixels (h.size .minHeight (by simp)), scaled_pixels (h.size .maxHeight (by simp)), getD_scaled]
  cases (s.get .height).pixels fp d with
  | none =>
    simp only [Option.map_none]
    split
    · rfl
    · exact hx
  | some a => exact scaled_limited none _ a

mutual
theorem scaled_tall (hd : d.Scaled k d') : ∀ {n n' : Node}, n.Along (CSS.Scaled fp d d' k) n' → n'.tall fp d' = k * n.tall fp d
  | .mk s z l cs, .mk s' z' l' cs', h => by
    rw [Node.tall, Node.tall, scaled_edge hd h.1, scaled_edge hd h.1, mul_add, mul_add]
    exact congrArg₂ (· + ·) (congrArg₂ (· + ·) rfl (scaled_content h.1 (alongs_isEmpty h.2) (scaled_stack hd h.2))) rfl
theorem scaled_stack (hd : d.Scaled k d') : ∀ {cs cs' : List Node}, Alongs (CSS.Scaled fp d d' k) cs cs' → stackTall fp d' cs' = k * stackTall fp d cs
  | [], [], _ => by rw [stackTall, stackTall, mul_zero]
  | [c], [c'], h => by rw [stackTall, stackTall]; exact scaled_tall hd h.1
  | c :: e :: cs, c' :: e' :: cs', h => by
    rw [stackTall, stackTall, scaled_tall hd h.1, scaled_between h.1 h.2.1, scaled_stack hd h.2]
    ring
  | [_], _ :: _ :: _, h => h.2.elim
  | _ :: _ :: _, [_], h => h.2.elim
end

theorem scaled_topAt (hd : d.Scaled k d') : ∀ {cs cs' : List Node}, Alongs (CSS.Scaled fp d d' k) cs cs' → ∀ i, topAt fp d' cs' i = k * topAt fp d cs i
  | c :: e :: cs, c' :: e' :: cs', h, i + 1 => by
    rw [topAt, topAt, scaled_tall hd h.1, scaled_between h.1 h.2.1, scaled_topAt hd h.2 i]
    ring
  | _, _, _, 0 => by rw [topAt_zero, topAt_zero, mul_zero]
  | [], [], _, _ => by simp [topAt]
  | [_], [_], _, _ + 1 => by simp [topAt]
  | [_], _ :: _ :: _, h, _ => h.2.elim
  | _ :: _ :: _, [_], h, _ => h.2.elim

theorem scaled_contentWide (hd : d.Scaled k d') {s s' : CSS} (h : s.Scaled fp d d' k s') (W : Rat) :
    s'.contentWide fp d' (k * W) = k * s.contentWide fp d W := by
  unfold CSS.contentWide CSS.outside
  rw [scaled_pixels (h.size .width (by simp)), scaled_pixels (h.size .minWidth (by simp)), scaled_pixels (h.size .maxWidth (by simp)),
    scaled_edge hd h, scaled_edge hd h, scaled_pixels (h.margin _), scaled_pixels (h.margin _), getD_scaled, getD_scaled]
  cases (s.get .width).pixels fp d with
  | none => simp only [Option.map_none]; ring
  | some a => exact scaled_limited _ _ a

theorem scaled_wide (hd : d.Scaled k d') {s s' : CSS} (h : s.Scaled fp d d' k s') (W : Rat) : s'.wide fp d' (k * W) = k * s.wide fp d W := by
  unfold CSS.wide
  rw [scaled_contentWide hd h, scaled_edge hd h, scaled_edge hd h]
  ring

theorem usedMargins_scaled (hk : 0 < k) (ltr auto : Bool) (W w : Rat) (l r : Option Rat) :
    (usedMargins ltr auto (k * W) (k * w) (l.map ((k : Rat) * ·)) (r.map ((k : Rat) * ·))).1 = k * (usedMargins ltr auto W w l r).1 := by
  unfold usedMargins
  have hk' : (0 : Rat) < k := by exact_mod_cast hk
  have e : (k : Rat) * W < k * w + (l.map ((k : Rat) * ·)).getD 0 + (r.map ((k : Rat) * ·)).getD 0 ↔ W < w + l.getD 0 + r.getD 0 := by
    rw [getD_scaled, getD_scaled, ← mul_add, ← mul_add]
    exact mul_lt_mul_iff_right₀ hk'
  simp only [e]
  cases auto with
  | true => simp only [if_true]; exact getD_scaled _
  | false =>
    simp only [Bool.false_eq_true, if_false]
    split
    · cases ltr <;> simp only [getD_scaled, Bool.false_eq_true, if_false, if_true]
      ring
    · cases l <;> cases r <;> cases ltr <;> simp <;> ring

theorem scaled_uncentred {s s' : CSS} (h : s.Scaled fp d d' k s') (hu : s.Uncentred) : s'.Uncentred := by
  unfold CSS.Uncentred at hu ⊢
  simp only [ne_eq, ← isKw_iff] at hu ⊢
  rw [scaled_isKw _ (h.size .width (by simp)), scaled_isKw _ (h.margin _), scaled_isKw _ (h.margin _)]
  exact hu

theorem scaled_shift (hk : 0 < k) (hd : d.Scaled k d') {m m' : Node} (hr : m.Regular fp d) (hr' : m'.Regular fp d') (h : m.style.Scaled fp d d' k m'.style)
    (hu : m.style.Uncentred) (W : Rat) : m'.style.shift fp d' (k * W) = k * m.style.shift fp d W := by
  rw [uncentred_shift hr hu, uncentred_shift hr' (scaled_uncentred h hu), scaled_wide hd h, h.direction, scaled_pixels (h.size .width (by simp)),
    Option.isNone_map]
  unfold CSS.outside
  rw [scaled_pixels (h.margin _), scaled_pixels (h.margin _)]
  exact usedMargins_scaled hk ..

/-- The second region is the first one, enlarged. -/
structure Region.Scaled (k : Nat) (f g : Region) : Prop where
  left : g.left = k * f.left
  top : g.top = k * f.top
  width : g.width = k * f.width
  height : g.height = k * f.height
  contentLeft : g.contentLeft = k * f.contentLeft
  contentTop : g.contentTop = k * f.contentTop
  contentWidth : g.contentWidth = k * f.contentWidth
  contentHeight : g.contentHeight = k * f.contentHeight

theorem scaled_regionAt (hk : 0 < k) (hd : d.Scaled k d') (q : List Nat) : ∀ {n n' : Node} {W x y W' x' y' : Rat}, n.Along (CSS.Scaled fp d d' k) n' →
    n.AllRegular fp d → n'.AllRegular fp d' → (∀ m, Sub m n → m.style.Uncentred) → W' = k * W → x' = k * x → y' = k * y →
    Option.Rel (Region.Scaled k) (n.regionAt fp d W x y q) (n'.regionAt fp d' W' x' y' q) := by
  induction q with
  | nil =>
    rintro n n' W x y _ _ _ h hr hr' hu rfl rfl rfl
    have hs := along_style h
    have e := scaled_shift hk hd (hr n (.refl _)) (hr' n' (.refl _)) hs (hu n (.refl _)) W
    rw [Node.regionAt, Node.regionAt]
    refine .some ⟨?_, rfl, scaled_wide hd hs W, scaled_tall hd h, ?_, ?_, scaled_contentWide hd hs W, ?_⟩ <;> simp only [Node.region]
    · rw [e]; ring
    · rw [e, scaled_edge hd hs]; ring
    · rw [scaled_edge hd hs]; ring
    · rw [scaled_edge hd hs, scaled_edge hd hs, scaled_tall hd h]; ring
  | cons i q ih =>
    rintro n n' W x y _ _ _ h hr hr' hu rfl rfl rfl
    have hs := along_style h
    have e := scaled_shift hk hd (hr n (.refl _)) (hr' n' (.refl _)) hs (hu n (.refl _)) W
    rw [Node.regionAt, Node.regionAt]
    cases hc : n.children[i]? with
    | none =>
      rw [(along_none h).1 hc]
      exact .none
    | some c =>
      cases hc' : n'.children[i]? with
      | none =>
        rw [(along_none h).2 hc'] at hc
        cases hc
      | some c' =>
        simp only [Option.bind_some]
        have m := List.mem_of_getElem? hc
        refine ih (along_kid h hc hc') (allRegular_kid hr m) (allRegular_kid hr' (List.mem_of_getElem? hc'))
          (fun z hz => hu z (.child m hz)) (scaled_contentWide hd hs W) ?_ ?_
        · rw [e, scaled_edge hd hs]; ring
        · rw [scaled_edge hd hs, scaled_topAt hd (along_children h)]; ring

end Colosseum
