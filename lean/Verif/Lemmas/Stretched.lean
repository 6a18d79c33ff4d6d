import Verif.Spec.Stretched
import Verif.Lemmas.Widen
import Verif.Lemmas.Merged
import Verif.Lemmas.Resize
import Verif.Lemmas.Without

/-!
# Lemmas: a taller block
-/

namespace Colosseum

open Blueprint (Lowered Grown)

variable {fp : FP} {d : Display} {δ : Rat} {B : List Blueprint → List Blueprint → Prop} {A : Node → Node → Prop}

theorem sum_exact (E : fp.Exact) (a b : Num) : (a.add fp b).val = a.val + b.val := by
  have E : ∀ q, fp.rnd q = q := E
  cases a <;> cases b <;> simp [Num.add, Num.toFloat, Num.val, E]

theorem replacing_value (a b : Num) : (a.replacing b).val = b.val := by
  unfold Num.replacing
  split
  · rename_i h; exact h.symm
  · rfl

theorem always_auto {v : Val} {x : Num} (h : v.Always fp d x) : v.isKw "auto" = false := by
  cases hv : v with
  | str t => rw [hv] at h; cases h none
  | _ => rfl

theorem lowered_last {ks ks' : List Blueprint} (h : List.Forall₂ (Lowered δ) ks ks') : Paired (Lowered δ) ks.getLast? ks'.getLast? := by
  induction h with
  | nil => trivial
  | cons h hs ih =>
    cases hs with
    | nil => exact h
    | cons _ _ => simpa [List.getLast?_cons_cons] using ih

theorem lowered_stack (E : fp.Exact) (s : CSS) (r : Surround) : ∀ (cs : List Node), (∀ b ∈ cs, b.blockish = true) → ∀ (y y' : Num) bm, y'.val = y.val + δ →
    Paired (List.Forall₂ (Lowered δ)) (stackPlans fp d s r y bm cs) (stackPlans fp d s r y' bm cs)
  | [], _, _, _, _, _ => List.Forall₂.nil
  | c :: cs, hb, y, y', bm, hy => by
    simp only [stackPlans, Option.bind_eq_bind, hb c (by simp), if_true]
    refine (Paired.same (R := Eq) (fun _ => rfl) _).bind ?_
    rintro k _ rfl
    cases k with
    | absent => trivial
    | mk f ks =>
      dsimp only
      refine (Paired.same (R := Eq) (fun _ => rfl) _).bind ?_
      rintro g _ rfl
      refine (Paired.same (R := Eq) (fun _ => rfl) _).bind ?_
      rintro t _ rfl
      have hg : (g.elim y' (y'.add fp)).val = (g.elim y (y.add fp)).val + δ := by
        cases g with
        | none => exact hy
        | some g => simp only [Option.elim_some, sum_exact E, hy]; ring
      refine (lowered_stack E s r cs (fun b h => hb b (by simp [h])) _ _ _ ?_).bind fun ts ts' hts => ?_
      · rw [sum_exact E, sum_exact E, hg]; ring
      · refine List.Forall₂.cons ?_ hts
        refine Lowered.mk (f.moved fp (g.elim y (y.add fp))) _ ks ?_
        simp only [Figures.moved, replacing_value, sum_exact E, hg]
        ring

/-- What a list of boxes becomes when one is taller. -/
def GrownIn (B : List Blueprint → List Blueprint → Prop) (δ : Rat) (ks ks' : List Blueprint) : Prop :=
  ∃ pre k k' post post', ks = pre ++ k :: post ∧ ks' = pre ++ k' :: post' ∧ Grown B δ k k' ∧ List.Forall₂ (Lowered δ) post post'

/-- What is needed of elements for what is around them. -/
structure Kindred (n n' : Node) : Prop where
  blockish : n'.blockish = n.blockish
  boxed : n.layout.isSome = n'.layout.isSome

theorem amid_kindred {n n' : Node} (hA : ∀ n n', A n n' → Kindred n n') (h : Node.Amid A n n') : Kindred n n' := by
  cases h with
  | self h => exact hA _ _ h
  | inside _ _ _ _ hl => exact ⟨rfl, hl⟩

theorem swollen_figures {k k' : Blueprint} (h : Grown B δ k k') : ∃ f ks ks' h h', k = .mk f ks ∧ k' = .mk { f with height := some h' } ks' ∧
    f.height = some h ∧ h'.val = h.val + δ ∧ ∀ f', Grown B δ (.mk { f with y := f' } ks) (.mk { f with y := f', height := some h' } ks') := by
  cases h with
  | self f h h' ks ks' e e' hB => exact ⟨f, ks, ks', h, h', rfl, rfl, e, e', fun y => .self { f with y := y } h h' ks ks' e e' hB⟩
  | inside f h h' pre post post' k k' e e' hk hp => exact ⟨f, _, _, h, h', rfl, rfl, e, e', fun y => .inside { f with y := y } h h' pre post post' k k' e e' hk hp⟩

theorem swollen_stack (E : fp.Exact) (s : CSS) (r : Surround) {c c' : Node} (hc : Paired (Grown B δ) (c.plan fp d (some s) r) (c'.plan fp d (some s) r))
    (hbc : c'.blockish = c.blockish) {post : List Node} : ∀ (pre : List Node), (∀ b ∈ pre ++ c :: post, b.blockish = true) → ∀ y bm,
    Paired (GrownIn B δ) (stackPlans fp d s r y bm (pre ++ c :: post)) (stackPlans fp d s r y bm (pre ++ c' :: post))
  | [], hb, y, bm => by
    have h1 : c.blockish = true := hb c (by simp)
    simp only [List.nil_append, stackPlans, Option.bind_eq_bind, h1, hbc, if_true]
    refine hc.bind fun k k' hk => ?_
    obtain ⟨f, ks, ks', h, h', rfl, rfl, e, e', hm⟩ := swollen_figures hk
    dsimp only
    have eg : gapAbove bm { f with height := some h' } = gapAbove bm f := rfl
    rw [eg]
    refine (Paired.same (R := Eq) (fun _ => rfl) _).bind ?_
    rintro g _ rfl
    simp only [Figures.tall, e, Option.map_some, Option.bind_some]
    refine (lowered_stack (δ := δ) E s r post (fun b h => hb b (by simp [h])) _ _ _ ?_).bind fun ts ts' hts => ?_
    · simp only [Num.plus, sum_exact E, e']
      ring
    · exact ⟨[], _, _, ts, ts', rfl, rfl, hm _, hts⟩
  | a :: pre, hb, y, bm => by
    have h1 : a.blockish = true := hb a (by simp)
    simp only [List.cons_append, stackPlans, Option.bind_eq_bind, h1, if_true]
    refine (Paired.same (R := Eq) (fun _ => rfl) _).bind ?_
    rintro k _ rfl
    cases k with
    | absent => trivial
    | mk f ks =>
      dsimp only
      refine (Paired.same (R := Eq) (fun _ => rfl) _).bind ?_
      rintro g _ rfl
      refine (Paired.same (R := Eq) (fun _ => rfl) _).bind ?_
      rintro t _ rfl
      refine (swollen_stack E s r hc hbc pre (fun b h => hb b (by simp only [List.cons_append, List.mem_cons]; exact .inr h)) _ _).bind ?_
      rintro ts ts' ⟨p, k, k', q, q', rfl, rfl, hk, hq⟩
      exact ⟨_ :: p, k, k', q, q', rfl, rfl, hk, hq⟩

/-- The last box ends lower by `δ`, and has the same collapsed margin. -/
theorem swollen_last {ks ks' : List Blueprint} (h : GrownIn B δ ks ks') : ∃ f f' c c', ks.getLast? = some (.mk f c) ∧ ks'.getLast? = some (.mk f' c') ∧
    f.below = f'.below ∧ f.padding = f'.padding ∧ f.border = f'.border ∧
    Paired (fun a b => f'.y.val + b.val = f.y.val + a.val + δ) f.height f'.height := by
  obtain ⟨pre, k, k', post, post', rfl, rfl, hk, hp⟩ := h
  cases hp with
  | nil =>
    obtain ⟨f, c, c', h, h', rfl, rfl, e, e', _⟩ := swollen_figures hk
    refine ⟨f, { f with height := some h' }, c, c', by simp, by simp, rfl, rfl, rfl, ?_⟩
    rw [e]
    show f.y.val + h'.val = _
    rw [e']; ring
  | cons h hs =>
    have := lowered_last (List.Forall₂.cons h hs)
    rename_i a b l1 l2
    have e1 : (pre ++ k :: a :: l1).getLast? = (a :: l1).getLast? := by rw [List.getLast?_append_of_ne_nil _ (by simp), List.getLast?_cons_cons]
    have e2 : (pre ++ k' :: b :: l2).getLast? = (b :: l2).getLast? := by rw [List.getLast?_append_of_ne_nil _ (by simp), List.getLast?_cons_cons]
    rw [e1, e2]
    generalize hx : (a :: l1).getLast? = x at this ⊢
    generalize (b :: l2).getLast? = y at this ⊢
    match x, y, this with
    | none, none, _ => simp at hx
    | some x, some y, h =>
      obtain ⟨f, y, ks, hy⟩ := h
      refine ⟨f, { f with y := y }, ks, ks, rfl, rfl, rfl, rfl, rfl, ?_⟩
      cases f.height with
      | none => trivial
      | some h =>
        show y.val + h.val = _
        rw [hy]; ring

theorem blank_top (n : Node) : n.blank.at [] = if n.layout.isSome then some .zero else none := by
  obtain ⟨s, z, l, cs⟩ := n
  cases l <;> rfl

theorem blanks_append : ∀ cs cs' : List Node, blankAll (cs ++ cs') = blankAll cs ++ blankAll cs'
  | [], _ => rfl
  | c :: cs, cs' => by simp only [List.cons_append, blankAll, blanks_append cs cs']

theorem blanks_within {c c' : Node} {pre post : List Node} (h : c.layout.isSome = c'.layout.isSome) :
    Option.Rel (fun k k' => k.at [] = k'.at []) (blankAll (pre ++ c :: post)).getLast? (blankAll (pre ++ c' :: post)).getLast? := by
  rw [blanks_append, blanks_append, List.getLast?_append_of_ne_nil _ (by simp [blankAll]), List.getLast?_append_of_ne_nil _ (by simp [blankAll])]
  simp only [blankAll]
  cases post with
  | nil => exact .some (show c.blank.at [] = c'.blank.at [] by rw [blank_top, blank_top, h])
  | cons b post =>
    simp only [blankAll, List.getLast?_cons_cons]
    generalize (b.blank :: blankAll post).getLast? = x
    cases x with
    | none => exact .none
    | some x => exact .some rfl

/-- The height given for the parent does not matter. -/
theorem absolute_plan {s s' : CSS} {h h' : Num} (hs : (s.get .height).Always fp d h) (hs' : (s'.get .height).Always fp d h') (r : Surround) (c : Node)
    (hc : (c.style.get .height).isPercent = false) : c.plan fp d (some s) r = c.plan fp d (some s') r := by
  obtain ⟨t, z, l, cs⟩ := c
  have e : ∀ H w kids k, (Node.mk t z l cs).along fp d (some s) H w kids k = (Node.mk t z l cs).along fp d (some s') H w kids k := by
    intro H w kids k
    cases k with
    | block =>
      simp only [Node.along, CSS.givenHeight, always_auto hs, always_auto hs', hs H, hs' H, Bool.false_eq_true, if_false, Option.map_some, Option.bind_eq_bind,
        Option.bind_some, Node.style]
      rw [show (t.get .height).inPixels fp d (some h) = (t.get .height).inPixels fp d (some h') from rigid_pixels fp d _ _ _ hc]
    | _ => rfl
  simp only [Node.plan, e]

theorem absolute_flow {s s' : CSS} {h h' : Num} (hs : (s.get .height).Always fp d h) (hs' : (s'.get .height).Always fp d h') (r : Surround) : ∀ cs : List Node,
    (∀ c ∈ cs, (c.style.get .height).isPercent = false) → flowPlans fp d s r cs = flowPlans fp d s' r cs
  | [], _ => rfl
  | c :: cs, hc => by
    simp only [flowPlans, absolute_plan hs hs' r c (hc c (by simp)), absolute_flow hs hs' r cs fun c h => hc c (by simp [h])]

theorem absolute_stack {s s' : CSS} {h h' : Num} (hs : (s.get .height).Always fp d h) (hs' : (s'.get .height).Always fp d h') (r : Surround) : ∀ cs : List Node,
    (∀ c ∈ cs, (c.style.get .height).isPercent = false) → ∀ y bm, stackPlans fp d s r y bm cs = stackPlans fp d s' r y bm cs
  | [], _ => fun _ _ => rfl
  | c :: cs, hc => by
    intro y bm
    simp only [stackPlans, absolute_plan hs hs' r c (hc c (by simp)), absolute_stack hs hs' r cs fun c h => hc c (by simp [h])]

theorem block_manner {n : Node} (hb : n.blockish = true) {k : Manner} (h : n.manner = some k) : k = .block ∧ n.intrinsic.isReplaced = false := by
  unfold Node.manner at h
  split at h
  · cases h
  · split at h
    · rename_i hi
      simp only [Node.blockish, (isKw_iff _ _).1 hi] at hb
      cases hb
    · split at h
      · rename_i hr
        simp only [Bool.and_eq_true, Bool.not_eq_true'] at hr
        exact ⟨(Option.some.inj h).symm, hr.2⟩
      · cases h

theorem paired_with {α β γ : Type} {S : β → γ → Prop} {x : Option α} {f : α → Option β} {g : α → Option γ} (hf : ∀ a, x = some a → Paired S (f a) (g a)) :
    Paired S (x.bind f) (x.bind g) := by
  cases x with
  | none => trivial
  | some a => exact hf a rfl

theorem taller_plan {n n' : Node} (ht : n.Taller fp d δ n') (q : Option CSS) (r : Surround) : Paired (Grown Eq δ) (n.plan fp d q r) (n'.plan fp d q r) := by
  obtain ⟨hs, hh, hh', e, hm, hr, hb, hc, hl⟩ := ht
  rename_i s s' z l l' cs h h'
  have he : s'.edges fp d r.width r.height = s.edges fp d r.width r.height := by
    simp only [CSS.edges, fun t => hs (.margin t) nofun, fun t => hs (.borderWidth t) nofun, fun t => hs (.padding t) nofun]
  have hma : (Node.mk s' z l' cs).manner = (Node.mk s z l cs).manner := by
    simp only [Node.manner, Node.blockish, Node.style, Node.intrinsic, hs .float nofun, hs .position nofun, hs .display nofun]
    rfl
  have hpl : (Node.mk s' z l' cs).piles = (Node.mk s z l cs).piles := by
    simp only [Node.piles, Node.style, Node.intrinsic, Node.children, hs .display nofun]
  unfold Node.plan
  dsimp only
  rw [he, hma, hpl, ← hs .display nofun, ← hs .position nofun, hr]
  have hd : (s.get .display).isNone = false := by
    cases hv : s.get .display with
    | none =>
      simp only [Node.blockish, Node.style, hv] at hb
      cases hb
    | _ => rfl
  simp only [hd, Bool.false_eq_true, if_false, Option.bind_eq_bind, Option.bind_some]
  refine paired_with fun k hk => ?_
  obtain ⟨rfl, -⟩ := block_manner hb hk
  refine paired_with ?_
  rintro ⟨m, b, p⟩ -
  dsimp only
  have hac : (Node.mk s' z l' cs).across fp d r.width m b p .block = (Node.mk s z l cs).across fp d r.width m b p .block := by
    simp only [Node.across, CSS.givenWidth, Node.style, hs .width nofun, hs .maxWidth nofun, hs .minWidth nofun, hs .direction nofun]
    rfl
  rw [hac]
  refine paired_with ?_
  rintro ⟨w, left, right⟩ -
  dsimp only
  refine paired_with ?_
  rintro ⟨top, bottom⟩ -
  dsimp only
  rw [absolute_stack hh hh' _ cs hc, absolute_flow hh hh' _ cs hc]
  refine paired_with ?_
  rintro ks -
  have hal : Paired (fun a b => a = some h ∧ b = some h') ((Node.mk s z l cs).along fp d q r.height w ks .block) ((Node.mk s' z l' cs).along fp d q r.height w ks .block) := by
    simp only [Node.along, Node.style, always_auto hh, always_auto hh', Bool.not_false, if_true, CSS.givenHeight, ← hs .maxHeight nofun, hm, Option.bind_eq_bind]
    refine Paired.map (R := fun a b => a = h ∧ b = h') (paired_with fun o _ => ?_) fun a b hab => ⟨congrArg some hab.1, congrArg some hab.2⟩
    simp only [hh o, hh' o, lt_irrefl, if_false, Option.bind_some]
    exact ⟨rfl, rfl⟩
  refine hal.bind ?_
  rintro _ _ ⟨rfl, rfl⟩
  simp only [always_auto hh, always_auto hh']
  exact .self _ h h' ks ks rfl e rfl

theorem taller_kindred {n n' : Node} (h : n.Taller fp d δ n') : Kindred n n' := by
  obtain ⟨hs, _, _, _, _, _, _, _, hl⟩ := h
  refine ⟨?_, hl⟩
  simp only [Node.blockish, Node.style, hs .display nofun]

theorem amid_plan (E : fp.Exact) {n n' : Node} (hA : ∀ n n', A n n' → Kindred n n') (hP : ∀ n n', A n n' → ∀ q r, Paired (Grown B δ) (n.plan fp d q r) (n'.plan fp d q r))
    (h : Node.Amid A n n') : ∀ q r, Paired (Grown B δ) (n.plan fp d q r) (n'.plan fp d q r) := by
  induction h with
  | self h => exact hP _ _ h
  | @inside s z l l' pre post c c' hd ha hb hc hl ih =>
    intro q r
    have hbl : c'.blockish = c.blockish := (amid_kindred hA hc).blockish
    have hn : (Node.mk s z l (pre ++ c :: post)).blockish = true := by
      rcases hd with hd | hd <;> simp only [Node.blockish, Node.style, hd] <;> rfl
    unfold Node.plan
    dsimp only
    split
    · rename_i h
      rcases hd with hd | hd <;> rw [hd] at h <;> cases h
    · simp only [Option.bind_eq_bind]
      refine paired_with fun k hk => ?_
      obtain ⟨rfl, hz⟩ := block_manner hn hk
      have hz : z.isReplaced = false := hz
      have hp : (Node.mk s z l (pre ++ c :: post)).piles = true := by
        have : (pre ++ c :: post).any Node.blockish = true := by simp [hb c (by simp)]
        rcases hd with hd | hd <;> simp only [Node.piles, Node.style, Node.intrinsic, Node.children, hd, hz, this] <;> rfl
      have hp' : (Node.mk s z l' (pre ++ c' :: post)).piles = true := by
        have : (pre ++ c' :: post).any Node.blockish = true := by simp [hbl, hb c (by simp)]
        rcases hd with hd | hd <;> simp only [Node.piles, Node.style, Node.intrinsic, Node.children, hd, hz, this] <;> rfl
      rw [hp, hp']
      simp only [if_true]
      refine paired_with ?_
      rintro ⟨m, b, p⟩ -
      dsimp only
      refine paired_with (x := Node.across _ _ _ _ _ _ _ _) ?_
      rintro ⟨w, left, right⟩ -
      dsimp only
      refine paired_with ?_
      rintro ⟨top, bottom⟩ -
      dsimp only
      have hg : (Node.mk s z l' (pre ++ c' :: post)).along fp d q r.height w (blankAll (pre ++ c' :: post)) .block =
          (Node.mk s z l (pre ++ c :: post)).along fp d q r.height w (blankAll (pre ++ c :: post)) .block :=
        along_last rfl rfl (.inr (.inr (blanks_within (amid_kindred hA hc).boxed)))
      rw [hg]
      refine paired_with (x := ite _ _ _) ?_
      rintro guess -
      refine (swollen_stack E s _ (ih (some s) _) hbl pre hb _ _).bind fun ks ks' hk => ?_
      obtain ⟨f, f', u, u', h1, h2, h3, h4, h5, h6⟩ := swollen_last hk
      have hal : Paired (fun a b => ∃ x y : Num, a = some x ∧ b = some y ∧ y.val = x.val + δ) ((Node.mk s z l (pre ++ c :: post)).along fp d q r.height w ks .block)
          ((Node.mk s z l' (pre ++ c' :: post)).along fp d q r.height w ks' .block) := by
        simp only [Node.along, Node.style, ha, Bool.not_true, Bool.false_eq_true, if_false, h1, h2, Figures.end, ← h4, ← h5, Option.map_map]
        refine h6.map fun a b hab => ⟨_, _, rfl, rfl, ?_⟩
        simp only [Num.plus, sum_exact E]
        rw [hab]; ring
      refine hal.bind ?_
      rintro _ _ ⟨x, y, rfl, rfl, hxy⟩
      refine paired_with ?_
      rintro ⟨vx, vy⟩ -
      dsimp only
      have hab : firstAbove true ks' m.top.collapsible = firstAbove true ks m.top.collapsible := by
        obtain ⟨pre, k, k', post, post', rfl, rfl, hk, hp⟩ := hk
        cases pre with
        | nil =>
          obtain ⟨f, c, c', h, h', rfl, rfl, -⟩ := swollen_figures hk
          rfl
        | cons a _ => cases a <;> rfl
      have hbe : ∀ o, lastBelow o ks' m.bottom.collapsible = lastBelow o ks m.bottom.collapsible := by
        intro o
        cases o <;> simp only [lastBelow, h1, h2, h3]
      rw [hab, hbe]
      obtain ⟨pre, k, k', post, post', rfl, rfl, hk, hp⟩ := hk
      exact .inside _ x y pre post post' k k' rfl hxy hk hp

theorem amid_blueprint (E : fp.Exact) {n n' : Node} (hA : ∀ n n', A n n' → Kindred n n') (hP : ∀ n n', A n n' → ∀ q r, Paired (Grown B δ) (n.plan fp d q r) (n'.plan fp d q r))
    (h : Node.Amid A n n') (q : Option CSS) :
    Paired (Grown B δ) (n.blueprint fp d false q) (n'.blueprint fp d false q) := by
  unfold Node.blueprint
  have hP := amid_plan E hA hP h q ⟨some d.contentWidth, some d.contentHeight, none⟩
  generalize n.plan fp d q _ = x at hP ⊢
  generalize n'.plan fp d q _ = y at hP ⊢
  match x, y, hP with
  | none, none, _ => trivial
  | some x, some y, hP =>
    obtain ⟨f, ks, ks', h, h', rfl, rfl, e, e', hm⟩ := swollen_figures hP
    exact hm _

theorem stretched_blueprint (E : fp.Exact) {n n' : Node} (h : n.Stretched fp d δ n') (q : Option CSS) :
    Paired (Blueprint.Stretched δ) (n.blueprint fp d false q) (n'.blueprint fp d false q) :=
  amid_blueprint E (fun _ _ => taller_kindred) (fun _ _ h q r => taller_plan h q r) h q

end Colosseum
