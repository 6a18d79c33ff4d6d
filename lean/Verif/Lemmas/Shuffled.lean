import Verif.Spec.Shuffled
import Verif.Lemmas.Stretched

/-!
# Lemmas: children in another order
-/

namespace Colosseum

open Blueprint (Grown)

variable {fp : FP} {d : Display}

/-- A box without margins. -/
def Blueprint.Flush : Blueprint → Prop
  | .absent => True
  | .mk f _ => f.margin.top = .num (.int 0) ∧ f.above = 0 ∧ f.below = 0

theorem flush_blank (n : Node) : n.blank.Flush := by
  obtain ⟨s, z, l, cs⟩ := n
  cases l
  · trivial
  · exact ⟨rfl, rfl, rfl⟩

theorem flush_blanks : ∀ (cs : List Node), ∀ k ∈ blankAll cs, k.Flush
  | [], _, h => by cases h
  | c :: cs, k, h => by
    simp only [blankAll, List.mem_cons] at h
    rcases h with rfl | h
    · exact flush_blank c
    · exact flush_blanks cs k h

theorem flow_each {P : Blueprint → Prop} {s : CSS} {r : Surround} : ∀ {cs : List Node} {ks : List Blueprint}, (∀ c ∈ cs, ∀ k, c.plan fp d (some s) r = some k → P k) →
    flowPlans fp d s r cs = some ks → ∀ k ∈ ks, P k
  | [], ks, _, h => by cases h; nofun
  | c :: cs, ks, hc, h => by
    simp only [flowPlans, Option.bind_eq_bind, Option.bind_eq_some_iff] at h
    obtain ⟨k, hk, ks', hks, e⟩ := h
    cases e
    intro x hx
    rcases List.mem_cons.1 hx with rfl | hx
    · exact hc c (by simp) _ hk
    · exact flow_each (fun c h => hc c (by simp [h])) hks x hx

theorem stack_flush {s : CSS} {r : Surround} : ∀ {cs : List Node} {ks : List Blueprint} (y : Num) (bm : Option Int), (∀ c ∈ cs, ∀ k, c.plan fp d (some s) r = some k → k.Flush) →
    stackPlans fp d s r y bm cs = some ks → ∀ k ∈ ks, k.Flush
  | [], ks, _, _, _, h => by cases h; nofun
  | c :: cs, ks, y, bm, hc, h => by
    simp only [stackPlans, Option.bind_eq_bind] at h
    split at h
    · obtain ⟨k, hk, h⟩ := Option.bind_eq_some_iff.1 h
      have hf := hc c (by simp) k hk
      cases k with
      | absent => cases h
      | mk f us =>
        simp only [Option.bind_eq_some_iff] at h
        obtain ⟨g, hg, t, ht, rest, hr, e⟩ := h
        cases e
        intro x hx
        rcases List.mem_cons.1 hx with rfl | hx
        · exact hf
        · exact stack_flush _ _ (fun c h => hc c (by simp [h])) hr x hx
    · split at h
      · cases h
      · cases h
        exact flush_blanks _

theorem flow_head {P : Blueprint → Prop} {s : CSS} {r : Surround} {cs : List Node} {ks : List Blueprint} (hc : ∀ c, cs.head? = some c → ∀ k, c.plan fp d (some s) r = some k → P k)
    (h : flowPlans fp d s r cs = some ks) : ∀ k, ks.head? = some k → P k := by
  cases cs with
  | nil => cases h; nofun
  | cons c cs =>
    simp only [flowPlans, Option.bind_eq_bind, Option.bind_eq_some_iff] at h
    obtain ⟨k, hk, ks', -, e⟩ := h
    cases e
    rintro x ⟨⟩
    exact hc c rfl _ hk

theorem stack_head {P : Blueprint → Prop} (hm : ∀ f ks y, P (.mk f ks) → P (.mk (f.moved fp y) ks)) (hb : ∀ n : Node, P n.blank) {s : CSS} {r : Surround} {y : Num} {bm : Option Int}
    {cs : List Node} {ks : List Blueprint} (hc : ∀ c, cs.head? = some c → ∀ k, c.plan fp d (some s) r = some k → P k)
    (h : stackPlans fp d s r y bm cs = some ks) : ∀ k, ks.head? = some k → P k := by
  cases cs with
  | nil => cases h; nofun
  | cons c cs =>
    simp only [stackPlans, Option.bind_eq_bind] at h
    split at h
    · obtain ⟨k, hk, h⟩ := Option.bind_eq_some_iff.1 h
      have hf := hc c rfl k hk
      cases k with
      | absent => cases h
      | mk f us =>
        simp only [Option.bind_eq_some_iff] at h
        obtain ⟨g, hg, t, ht, rest, hr, e⟩ := h
        cases e
        rintro x ⟨⟩
        exact hm _ _ _ hf
    · split at h
      · cases h
      · cases h
        rintro x ⟨⟩
        exact hb c

theorem last_cons {α : Type} {a b : α} {l : List α} (h : (a :: l).getLast? = some b) : l = [] ∧ b = a ∨ l.getLast? = some b := by
  cases l with
  | nil => exact .inl ⟨rfl, (Option.some.inj h).symm⟩
  | cons c l => exact .inr (by rwa [List.getLast?_cons_cons] at h)

theorem flow_last {P : Blueprint → Prop} {s : CSS} {r : Surround} : ∀ {cs : List Node} {ks : List Blueprint},
    (∀ c, cs.getLast? = some c → ∀ k, c.plan fp d (some s) r = some k → P k) → flowPlans fp d s r cs = some ks → ∀ k, ks.getLast? = some k → P k
  | [], _, _, h => by cases h; nofun
  | c :: cs, _, hc, h => by
    simp only [flowPlans, Option.bind_eq_bind, Option.bind_eq_some_iff] at h
    obtain ⟨k, hk, ks, hks, e⟩ := h
    cases e
    intro x hx
    cases cs with
    | nil =>
      cases hks
      cases hx
      exact hc c rfl _ hk
    | cons b cs =>
      rcases last_cons hx with ⟨rfl, -⟩ | hx
      · simp only [flowPlans, Option.bind_eq_bind, Option.bind_eq_some_iff] at hks
        obtain ⟨_, -, _, -, e⟩ := hks
        cases e
      · exact flow_last (fun c h => hc c (by rw [List.getLast?_cons_cons]; exact h)) hks x hx

theorem blanks_each {P : Blueprint → Prop} (hb : ∀ n : Node, P n.blank) : ∀ (cs : List Node), ∀ k ∈ blankAll cs, P k
  | [], _, h => by cases h
  | c :: cs, k, h => by
    simp only [blankAll, List.mem_cons] at h
    rcases h with rfl | h
    · exact hb c
    · exact blanks_each hb cs k h

theorem stack_final {P : Blueprint → Prop} (hm : ∀ f ks y, P (.mk f ks) → P (.mk (f.moved fp y) ks)) (hb : ∀ n : Node, P n.blank) {s : CSS} {r : Surround} :
    ∀ {cs : List Node} {ks : List Blueprint} (y : Num) (bm : Option Int), (∀ c, cs.getLast? = some c → ∀ k, c.plan fp d (some s) r = some k → P k) →
      stackPlans fp d s r y bm cs = some ks → ∀ k, ks.getLast? = some k → P k
  | [], _, _, _, _, h => by cases h; nofun
  | c :: cs, ks, y, bm, hc, h => by
    simp only [stackPlans, Option.bind_eq_bind] at h
    split at h
    · obtain ⟨k, hk, h⟩ := Option.bind_eq_some_iff.1 h
      cases k with
      | absent => cases h
      | mk f us =>
        simp only [Option.bind_eq_some_iff] at h
        obtain ⟨g, hg, t, ht, rest, hr, e⟩ := h
        cases e
        intro x hx
        rcases last_cons hx with ⟨rfl, rfl⟩ | hx
        · cases cs with
          | nil => exact hm _ _ _ (hc c rfl _ hk)
          | cons b cs =>
            exfalso
            simp only [stackPlans, Option.bind_eq_bind] at hr
            split at hr
            · obtain ⟨k, -, hr⟩ := Option.bind_eq_some_iff.1 hr
              cases k with
              | absent => cases hr
              | mk f us =>
                simp only [Option.bind_eq_some_iff] at hr
                obtain ⟨_, -, _, -, _, -, e⟩ := hr
                cases e
            · split at hr <;> cases hr
        · cases cs with
          | nil => cases hr; cases hx
          | cons b cs => exact stack_final hm hb _ _ (fun c h => hc c (by rw [List.getLast?_cons_cons]; exact h)) hr x hx
    · split at h
      · cases h
      · cases h
        exact fun k hk => blanks_each hb _ k (List.mem_of_getLast? hk)

theorem nil_spacing {v : Val} (h : v.Nil fp d) (size : Option Num) : v.spacing fp d size = some (.num (.int 0)) := by
  unfold Val.spacing
  rw [h size]
  rfl

theorem edges_top {s : CSS} {W H : Option Num} {m : Edge MVal} {b p : Edge Num} (hs : (s.get (.margin .top)).Nil fp d) (h : s.edges fp d W H = some (m, b, p)) :
    m.top = .num (.int 0) := by
  simp only [CSS.edges, nil_spacing hs, Option.bind_eq_bind, Option.bind_some, Option.bind_eq_some_iff] at h
  obtain ⟨_, -, _, -, _, -, _, -, _, -, _, -, _, -, _, -, _, -, _, -, _, -, e⟩ := h
  cases e
  rfl

theorem edges_bottom {s : CSS} {W H : Option Num} {m : Edge MVal} {b p : Edge Num} (hs : (s.get (.margin .bottom)).Nil fp d) (h : s.edges fp d W H = some (m, b, p)) :
    m.bottom = .num (.int 0) := by
  simp only [CSS.edges, nil_spacing hs, Option.bind_eq_bind, Option.bind_some, Option.bind_eq_some_iff] at h
  obtain ⟨_, -, _, -, _, -, _, -, _, -, _, -, _, -, _, -, _, -, _, -, _, -, e⟩ := h
  cases e
  rfl

/-- Nothing at the top of a box. -/
def Blueprint.FlushAbove : Blueprint → Prop
  | .absent => True
  | .mk f _ => f.margin.top = .num (.int 0) ∧ f.above = 0

/-- Nothing at the bottom of a box. -/
def Blueprint.FlushBelow : Blueprint → Prop
  | .absent => True
  | .mk f _ => f.below = 0

theorem blank_above (n : Node) : n.blank.FlushAbove := by
  obtain ⟨s, z, l, cs⟩ := n
  cases l
  · trivial
  · exact ⟨rfl, rfl⟩

theorem blank_below (n : Node) : n.blank.FlushBelow := by
  obtain ⟨s, z, l, cs⟩ := n
  cases l
  · trivial
  · exact rfl

theorem above_plan {n : Node} (hn : n.NilAbove fp d) : ∀ q r k, n.plan fp d q r = some k → k.FlushAbove := by
  induction hn with
  | @mk s z l cs hs _ ih =>
    intro q r k h
    unfold Node.plan at h
    dsimp only at h
    split at h
    · cases h; trivial
    · simp only [Option.bind_eq_bind, Option.bind_eq_some_iff] at h
      obtain ⟨m, -, ⟨me, be, pe⟩, he, ⟨w, left, right⟩, -, ⟨top, bottom⟩, hu, guess, -, ks, hk, hh, -, ⟨x, y⟩, -, e⟩ := h
      have hm := edges_top hs he
      have ht : top = .int 0 := by
        dsimp only at hu
        unfold upright at hu
        cases m <;> simp only [hm, MVal.grounded, Option.some.injEq, Prod.mk.injEq] at hu <;> exact hu.1.symm
      have hf : ∀ k, ks.head? = some k → k.FlushAbove := by
        dsimp only at hk
        split at hk
        · exact stack_head (fun f ks y h => h) blank_above (fun c hc k hk => ih c hc _ _ k hk) hk
        · exact flow_head (fun c hc k hk => ih c hc _ _ k hk) hk
      cases e
      refine ⟨by simp only [ht], ?_⟩
      simp only [hm, MVal.collapsible, max_self]
      unfold firstAbove
      split
      · have := (hf _ rfl).2
        rw [this]; rfl
      · rfl

theorem below_plan {n : Node} (hn : n.NilBelow fp d) : ∀ q r k, n.plan fp d q r = some k → k.FlushBelow := by
  induction hn with
  | @mk s z l cs hs _ ih =>
    intro q r k h
    unfold Node.plan at h
    dsimp only at h
    split at h
    · cases h; trivial
    · simp only [Option.bind_eq_bind, Option.bind_eq_some_iff] at h
      obtain ⟨m, -, ⟨me, be, pe⟩, he, ⟨w, left, right⟩, -, ⟨top, bottom⟩, hu, guess, -, ks, hk, hh, -, ⟨x, y⟩, -, e⟩ := h
      have hm := edges_bottom hs he
      have hf : (s.get .height).isKw "auto" = true → ∀ k, ks.getLast? = some k → k.FlushBelow := by
        intro ha
        dsimp only at hk
        split at hk
        · exact stack_final (fun f ks y h => h) blank_below _ _ (fun c hc k hk => ih ha c hc _ _ k hk) hk
        · exact flow_last (fun c hc k hk => ih ha c hc _ _ k hk) hk
      cases e
      simp only [Blueprint.FlushBelow, hm, MVal.collapsible, max_self]
      unfold lastBelow
      split
      · rename_i f us ho e
        simp only [Bool.and_eq_true] at ho
        have : f.below = 0 := hf ho.2 (.mk f us) e
        rw [this]; rfl
      · rfl

theorem flush_plan {n : Node} (ha : n.NilAbove fp d) (hb : n.NilBelow fp d) {q : Option CSS} {r : Surround} {k : Blueprint} (h : n.plan fp d q r = some k) : k.Flush := by
  have h1 := above_plan ha q r k h
  have h2 := below_plan hb q r k h
  cases k with
  | absent => trivial
  | mk f us => exact ⟨h1.1, h1.2, h2⟩

theorem static_place (E : fp.Exact) {n : Node} (hb : n.blockish = true) (hr : (n.style.get .position).isKw "relative" = false) {q : Option CSS} {r : Surround} {f : Figures}
    {ks : List Blueprint} (h : n.plan fp d q r = some (.mk f ks)) : f.y.val = f.border.top.val + f.padding.top.val := by
  obtain ⟨s, z, l, cs⟩ := n
  have hr : (s.get .position).isKw "relative" = false := hr
  unfold Node.plan at h
  dsimp only at h
  split at h
  · cases h
  · simp only [Option.bind_eq_bind, Option.bind_eq_some_iff, hr, Bool.false_eq_true, if_false] at h
    obtain ⟨m, hm, ⟨me, be, pe⟩, he, ⟨w, left, right⟩, -, ⟨top, bottom⟩, hu, guess, -, ks, hk, hh, -, ⟨x, y⟩, hy, e⟩ := h
    obtain ⟨rfl, -⟩ := block_manner hb hm
    cases e
    cases hy
    simp only [replacing_value, sum_exact E, lowering, Num.plus]
    show ((0 : Int) : Rat) + _ = _
    push_cast
    ring

/-- Boxes below each other, without margins. -/
def pile (fp : FP) (y : Num) : List Blueprint → Option (List Blueprint)
  | [] => some []
  | .absent :: _ => none
  | .mk f ks :: rest => (f.tall fp).bind fun h => (pile fp (y.add fp h) rest).map (.mk (f.moved fp y) ks :: ·)

theorem add_nothing (E : fp.Exact) (y : Num) : y.add fp (.int 0) = y := by
  have E : ∀ q, fp.rnd q = q := E
  cases y <;> simp [Num.add, Num.toFloat, E]

theorem stack_pile (E : fp.Exact) {s : CSS} {r : Surround} : ∀ (cs : List Node), (∀ c ∈ cs, c.blockish = true ∧ ∀ k, c.plan fp d (some s) r = some k → k.Flush) →
    ∀ y bm, (bm = none ∨ bm = some 0) → stackPlans fp d s r y bm cs = (flowPlans fp d s r cs).bind (pile fp y)
  | [], _, _, _, _ => rfl
  | c :: cs, hc, y, bm, hbm => by
    have ih := stack_pile E cs (fun c h => hc c (by simp [h]))
    simp only [stackPlans, flowPlans, Option.bind_eq_bind, (hc c (by simp)).1, if_true, Option.bind_assoc]
    cases hk : c.plan fp d (some s) r with
    | none => rfl
    | some k =>
      have hf := (hc c (by simp)).2 k hk
      cases k with
      | absent =>
        simp only [Option.bind_some]
        cases flowPlans fp d s r cs <;> rfl
      | mk f us =>
        obtain ⟨h1, h2, h3⟩ := hf
        have hg : (gapAbove bm f).map (fun g => g.elim y (y.add fp)) = some y := by
          rcases hbm with rfl | rfl
          · rfl
          · simp [gapAbove, h1, Num.val, add_nothing E]
        cases hG : gapAbove bm f with
        | none => rw [hG] at hg; cases hg
        | some g =>
          rw [hG] at hg
          have hg : g.elim y (y.add fp) = y := Option.some.inj hg
          simp only [Option.bind_some, hG, hg, h3, ih _ (some 0) (.inr rfl), pile]
          cases f.tall fp with
          | none => cases flowPlans fp d s r cs <;> rfl
          | some t =>
            cases flowPlans fp d s r cs with
            | none => rfl
            | some ks =>
              simp only [Option.bind_some]
              cases pile fp (y.add fp t) ks <;> rfl

theorem flow_perm {s : CSS} {r : Surround} {cs cs' : List Node} (h : cs.Perm cs') : Paired List.Perm (flowPlans fp d s r cs) (flowPlans fp d s r cs') := by
  induction h with
  | nil => exact List.Perm.nil
  | cons c _ ih =>
    simp only [flowPlans, Option.bind_eq_bind]
    exact paired_with fun k _ => ih.bind fun ks ks' h => h.cons k
  | swap a b l =>
    simp only [flowPlans, Option.bind_eq_bind]
    cases a.plan fp d (some s) r <;> cases b.plan fp d (some s) r <;> cases flowPlans fp d s r l <;> first | trivial | exact List.Perm.swap _ _ _
  | trans _ _ h1 h2 =>
    revert h1 h2
    generalize flowPlans fp d s r _ = x
    generalize flowPlans fp d s r _ = y
    generalize flowPlans fp d s r _ = z
    intro h1 h2
    cases x <;> cases y <;> cases z <;> first | trivial | exact False.elim h1 | exact False.elim h2 | exact List.Perm.trans h1 h2

theorem pile_perm (E : fp.Exact) {ks ks' : List Blueprint} (h : ks.Perm ks') : ∀ y, Paired Reordered (pile fp y ks) (pile fp y ks') := by
  induction h with
  | nil => exact fun _ => List.Perm.nil
  | cons k _ ih =>
    intro y
    cases k with
    | absent => trivial
    | mk f us => exact paired_with fun t _ => (ih _).map fun ts ts' h => List.Perm.cons _ h
  | swap a b l =>
    intro y
    cases a with
    | absent =>
      cases b with
      | absent => trivial
      | mk f us =>
        simp only [pile]
        cases f.tall fp <;> trivial
    | mk f us =>
      cases b with
      | absent =>
        simp only [pile]
        cases f.tall fp <;> trivial
      | mk g vs =>
        simp only [pile]
        cases f.tall fp with
        | none => cases g.tall fp <;> trivial
        | some t =>
          cases g.tall fp with
          | none => trivial
          | some u =>
            simp only [Option.bind_some]
            rw [show (y.add fp u).add fp t = (y.add fp t).add fp u by rw [add_assoc_exact E, add_assoc_exact E, add_comm_num fp u t]]
            cases pile fp ((y.add fp t).add fp u) l with
            | none => trivial
            | some ts => exact List.Perm.swap _ _ _
  | trans _ _ h1 h2 =>
    intro y
    have h1 := h1 y
    have h2 := h2 y
    revert h1 h2
    generalize pile fp y _ = x
    generalize pile fp y _ = u
    generalize pile fp y _ = z
    intro h1 h2
    cases x <;> cases u <;> cases z <;> first | trivial | exact False.elim h1 | exact False.elim h2 | exact List.Perm.trans h1 h2

/-- The height of a box. -/
def Blueprint.extent (fp : FP) : Blueprint → Rat
  | .absent => 0
  | .mk f _ => ((f.tall fp).map Num.val).getD 0

/-- A box that is where it belongs. -/
def Blueprint.Unmoved : Blueprint → Prop
  | .absent => True
  | .mk f _ => f.y.val = f.border.top.val + f.padding.top.val

/-- Where the last box ends. -/
theorem pile_end (E : fp.Exact) : ∀ (ks : List Blueprint) (y : Num) (ts : List Blueprint), ks ≠ [] → (∀ k ∈ ks, k.Unmoved) → pile fp y ks = some ts →
    ∃ f us e, ts.getLast? = some (.mk f us) ∧ f.end fp = some e ∧ e.val = y.val + (ks.map (Blueprint.extent fp)).sum
  | [], _, _, h, _, _ => absurd rfl h
  | .absent :: _, _, _, _, _, h => by cases h
  | .mk f us :: rest, y, ts, _, hu, h => by
    simp only [pile, Option.bind_eq_some_iff, Option.map_eq_some_iff] at h
    obtain ⟨t, ht, ts', hts, rfl⟩ := h
    cases rest with
    | nil =>
      cases hts
      have hy : f.y.val = f.border.top.val + f.padding.top.val := hu (.mk f us) (by simp)
      cases hh : f.height with
      | none => rw [Figures.tall, hh] at ht; cases ht
      | some x =>
        have ht' := ht
        rw [Figures.tall, hh] at ht'
        have ht' := Option.some.inj ht'
        refine ⟨f.moved fp y, us, _, rfl, by rw [Figures.end, Figures.moved, hh]; rfl, ?_⟩
        simp only [List.map_cons, List.map_nil, List.sum_cons, List.sum_nil, Blueprint.extent, ht, Option.map_some, Option.getD_some, ← ht', Num.plus, sum_exact E,
          replacing_value, hy]
        ring
    | cons k rest =>
      obtain ⟨g, vs, e, h1, h2, h3⟩ := pile_end E (k :: rest) (y.add fp t) ts' (by simp) (fun k h => hu k (by simp [h])) hts
      refine ⟨g, vs, e, ?_, h2, ?_⟩
      · cases ts' with
        | nil => cases h1
        | cons a b => rw [List.getLast?_cons_cons]; exact h1
      · have hx : (Blueprint.mk f us).extent fp = t.val := by simp only [Blueprint.extent, ht, Option.map_some, Option.getD_some]
        rw [h3, sum_exact E, List.map_cons (a := Blueprint.mk f us), List.sum_cons, hx]
        ring

theorem flow_length {s : CSS} {r : Surround} : ∀ {cs : List Node} {ks : List Blueprint}, flowPlans fp d s r cs = some ks → ks.length = cs.length
  | [], _, h => by cases h; rfl
  | c :: cs, _, h => by
    simp only [flowPlans, Option.bind_eq_bind, Option.bind_eq_some_iff] at h
    obtain ⟨k, -, ks, hk, e⟩ := h
    cases e
    simp [flow_length hk]

/-- What the children come to. -/
structure SameSum (fp : FP) (ts ts' : List Blueprint) : Prop where
  order : Reordered ts ts'
  flush : ∀ k ∈ ts, k.Flush
  flush' : ∀ k ∈ ts', k.Flush
  ends : ∃ f us e f' us' e', ts.getLast? = some (.mk f us) ∧ f.end fp = some e ∧ ts'.getLast? = some (.mk f' us') ∧ f'.end fp = some e' ∧ e'.val = e.val + 0

theorem shuffled_kids (E : fp.Exact) (s : CSS) (r : Surround) {cs cs' : List Node} (hp : cs.Perm cs')
    (hc : ∀ c ∈ cs, c.blockish = true ∧ (c.style.get .position).isKw "relative" = false ∧ c.NilAbove fp d ∧ c.NilBelow fp d) (hne : cs ≠ []) :
    Paired (SameSum fp) (stackPlans fp d s r (.int 0) none cs) (stackPlans fp d s r (.int 0) none cs') := by
  have hc' := fun c (h : c ∈ cs') => hc c (hp.mem_iff.2 h)
  have fl : ∀ c ∈ cs, ∀ k, c.plan fp d (some s) r = some k → k.Flush := fun c h k hk => flush_plan (hc c h).2.2.1 (hc c h).2.2.2 hk
  have fl' : ∀ c ∈ cs', ∀ k, c.plan fp d (some s) r = some k → k.Flush := fun c h k hk => flush_plan (hc' c h).2.2.1 (hc' c h).2.2.2 hk
  have un : ∀ c ∈ cs, ∀ k, c.plan fp d (some s) r = some k → k.Unmoved := fun c h k hk => by
    cases k with
    | absent => trivial
    | mk f us => exact static_place E (hc c h).1 (hc c h).2.1 hk
  have e1 := stack_pile E cs (fun c h => ⟨(hc c h).1, fl c h⟩) (.int 0) none (.inl rfl)
  have e2 := stack_pile E cs' (fun c h => ⟨(hc' c h).1, fl' c h⟩) (.int 0) none (.inl rfl)
  have hf := flow_perm (fp := fp) (d := d) (s := s) (r := r) hp
  cases hx : flowPlans fp d s r cs with
  | none =>
    rw [hx] at hf e1
    cases hy : flowPlans fp d s r cs' with
    | none => rw [hy] at e2; rw [e1, e2]; trivial
    | some _ => rw [hy] at hf; exact False.elim hf
  | some js =>
    rw [hx] at hf e1
    cases hy : flowPlans fp d s r cs' with
    | none => rw [hy] at hf; exact False.elim hf
    | some js' =>
      rw [hy] at hf e2
      have hf : js.Perm js' := hf
      have hu := flow_each un hx
      have hn : js ≠ [] := by
        intro h0
        have := flow_length hx
        rw [h0] at this
        exact hne (List.length_eq_zero_iff.1 this.symm)
      have hq := pile_perm E hf (.int 0)
      have e1' : stackPlans fp d s r (.int 0) none cs = pile fp (.int 0) js := e1
      have e2' : stackPlans fp d s r (.int 0) none cs' = pile fp (.int 0) js' := e2
      cases ha : pile fp (.int 0) js with
      | none =>
        rw [ha] at hq e1'
        cases hb : pile fp (.int 0) js' with
        | none => rw [e1', e2', hb]; trivial
        | some _ => rw [hb] at hq; exact False.elim hq
      | some ts =>
        rw [ha] at hq e1'
        cases hb : pile fp (.int 0) js' with
        | none => rw [hb] at hq; exact False.elim hq
        | some ts' =>
          rw [hb] at hq e2'
          have g1 := stack_flush _ _ fl e1'
          have g2 := stack_flush _ _ fl' e2'
          rw [e1', e2']
          obtain ⟨f, us, e, a1, a2, a3⟩ := pile_end E js _ ts hn hu ha
          obtain ⟨f', us', e', b1, b2, b3⟩ := pile_end E js' _ ts' (fun h0 => hn (by rw [h0] at hf; exact List.perm_nil.1 hf)) (fun k h => hu k (hf.mem_iff.2 h)) hb
          refine ⟨hq, g1, g2, f, us, e, f', us', e', a1, a2, b1, b2, ?_⟩
          rw [a3, b3, (hf.map _).sum_eq, add_zero]

theorem shuffled_kindred {n n' : Node} (h : n.Shuffled fp d n') : Kindred n n' := by
  obtain ⟨_, _, _, _, _, hl⟩ := h
  exact ⟨rfl, hl⟩

theorem collapsible_pos (v : MVal) : 0 ≤ v.collapsible := by
  unfold MVal.collapsible
  split
  · exact le_max_left _ _
  · exact le_rfl

theorem above_flush {b : Bool} {ks : List Blueprint} (h : ∀ k ∈ ks, k.Flush) {i : Int} (hi : 0 ≤ i) : firstAbove b ks i = i := by
  unfold firstAbove
  split
  · rename_i f us _
    have := (h (.mk f us) (by simp)).2.1
    rw [this]
    exact max_eq_left hi
  · rfl

theorem shuffled_plan (E : fp.Exact) {n n' : Node} (h : n.Shuffled fp d n') (q : Option CSS) (r : Surround) :
    Paired (Grown Reordered 0) (n.plan fp d q r) (n'.plan fp d q r) := by
  obtain ⟨hp, hd, ha, hr, hc, hl⟩ := h
  rename_i s z l l' cs cs'
  have hn : (Node.mk s z l cs).blockish = true := by
    rcases hd with hd | hd <;> simp only [Node.blockish, Node.style, hd] <;> rfl
  unfold Node.plan
  dsimp only
  split
  · rename_i h
    rcases hd with hd | hd <;> rw [hd] at h <;> cases h
  · simp only [Option.bind_eq_bind, hr, Bool.false_eq_true, if_false, Option.bind_some]
    refine paired_with fun k hk => ?_
    obtain ⟨rfl, hz⟩ := block_manner hn hk
    have hz : z.isReplaced = false := hz
    refine paired_with ?_
    rintro ⟨m, b, p⟩ -
    dsimp only
    refine paired_with (x := Node.across _ _ _ _ _ _ _ _) ?_
    rintro ⟨w, left, right⟩ -
    dsimp only
    refine paired_with ?_
    rintro ⟨top, bottom⟩ -
    dsimp only
    by_cases hne : cs = []
    · subst hne
      have : cs' = [] := List.nil_perm.1 hp
      subst this
      have e1 : (Node.mk s z l []).piles = false := by simp [Node.piles, Node.children]
      have e2 : (Node.mk s z l' []).piles = false := by simp [Node.piles, Node.children]
      simp only [e1, e2, Bool.false_eq_true, if_false, flowPlans, Option.bind_some]
      refine paired_with (x := Node.along _ _ _ _ _ _ _ _) fun h hh => ?_
      have : ∃ x, h = some x := by
        simp only [Node.along, Node.style, ha, Bool.not_true, Bool.false_eq_true, if_false, List.getLast?_nil] at hh
        by_cases hx : (s.get .minHeight).isKw "auto" = true
        · simp only [hx, if_true] at hh
          exact ⟨_, (Option.some.inj hh).symm⟩
        · simp only [hx, Bool.false_eq_true, if_false] at hh
          obtain ⟨x, -, e⟩ := Option.map_eq_some_iff.1 hh
          exact ⟨x, e.symm⟩
      obtain ⟨x, rfl⟩ := this
      exact .self _ x x [] [] rfl (add_zero _).symm List.Perm.nil
    · have any : ∀ {bs : List Node}, bs.Perm cs → bs.any Node.blockish = true := by
        intro bs hb
        obtain ⟨c, cs, rfl⟩ := List.exists_cons_of_ne_nil hne
        exact List.any_eq_true.2 ⟨c, hb.mem_iff.2 (by simp), (hc c (by simp)).1⟩
      have e1 : (Node.mk s z l cs).piles = true := by
        rcases hd with hd | hd <;> simp only [Node.piles, Node.style, Node.intrinsic, Node.children, hd, hz, any (.refl _)] <;> rfl
      have e2 : (Node.mk s z l' cs').piles = true := by
        rcases hd with hd | hd <;> simp only [Node.piles, Node.style, Node.intrinsic, Node.children, hd, hz, any hp.symm] <;> rfl
      rw [e1, e2]
      simp only [if_true]
      refine (shuffled_kids E s _ hp hc hne).bind fun ts ts' hts => ?_
      obtain ⟨ho, h1, h2, f, us, e, f', us', e', a1, a2, b1, b2, hv⟩ := hts
      have hal : (Node.mk s z l cs).along fp d q r.height w ts .block = some (some e) := by
        simp only [Node.along, Node.style, ha, Bool.not_true, Bool.false_eq_true, if_false, a1, a2, Option.map_some]
      have hal' : (Node.mk s z l' cs').along fp d q r.height w ts' .block = some (some e') := by
        simp only [Node.along, Node.style, ha, Bool.not_true, Bool.false_eq_true, if_false, b1, b2, Option.map_some]
      rw [hal, hal']
      simp only [Option.bind_some]
      have f1 : ∀ v : MVal, firstAbove true ts' v.collapsible = firstAbove true ts v.collapsible := fun v => by
        rw [above_flush h1 (collapsible_pos v), above_flush h2 (collapsible_pos v)]
      have f2 : ∀ o i, lastBelow o ts' i = lastBelow o ts i := by
        intro o i
        have g1 := (h1 _ (List.mem_of_getLast? a1)).2.2
        have g2 := (h2 _ (List.mem_of_getLast? b1)).2.2
        cases o <;> simp only [lastBelow, a1, b1, g1, g2]
      rw [f1, f2]
      exact .self _ e e' ts ts' rfl hv ho

theorem shuffled_blueprint (E : fp.Exact) {n n' : Node} (h : Node.Amid (Node.Shuffled fp d) n n') (q : Option CSS) :
    Paired (Grown Reordered 0) (n.blueprint fp d false q) (n'.blueprint fp d false q) :=
  amid_blueprint E (fun _ _ => shuffled_kindred) (fun _ _ h q r => shuffled_plan E h q r) h q

end Colosseum
