import Verif.Spec.Without
import Verif.Lemmas.Twins

/-!
# Lemmas: the blueprint of a document without some of its hidden elements
-/

namespace Colosseum

variable {fp : FP} {d : Display}

theorem shownIn_nil : shownIn [] = 0 := by simp [shownIn]

theorem shownIn_hidden {c : Node} (h : c.Hidden) (cs : List Node) : shownIn (c :: cs) = shownIn cs := by
  simp [shownIn, h]

theorem shownIn_shown {c : Node} (h : ¬ c.Hidden) (cs : List Node) : shownIn (c :: cs) = shownIn cs + 1 := by
  simp [shownIn, h]

theorem without_hidden {n m : Node} (h : Without n m) : n.Hidden ↔ m.Hidden := by
  cases h with
  | hidden h1 h2 _ => exact ⟨fun _ => h2, fun _ => h1⟩
  | shown => exact Iff.rfl

/-- The boxes of two lists of elements, one of which is the other without some that are hidden. -/
inductive Matched : List Node → List Node → List Blueprint → List Blueprint → Prop
  | nil : Matched [] [] [] []
  | keep {c c' : Node} {cs cs' : List Node} {k k' : Blueprint} {ks ks' : List Blueprint} : Without c c' →
      (∀ q r, SamePlace c c' q r → k.at q = k'.at r) → Matched cs cs' ks ks' → Matched (c :: cs) (c' :: cs') (k :: ks) (k' :: ks')
  | drop {c : Node} {cs cs' : List Node} {k : Blueprint} {ks ks' : List Blueprint} : c.Hidden → Matched cs cs' ks ks' →
      Matched (c :: cs) cs' (k :: ks) ks'

theorem Matched.get {cs cs' : List Node} {ks ks' : List Blueprint} (h : Matched cs cs' ks ks') : ∀ {i j : Nat} {c c' : Node}, cs[i]? = some c →
    cs'[j]? = some c' → ¬ c.Hidden → ¬ c'.Hidden → shownIn (cs.take i) = shownIn (cs'.take j) →
    ∃ k k', ks[i]? = some k ∧ ks'[j]? = some k' ∧ ∀ q r, SamePlace c c' q r → k.at q = k'.at r := by
  induction h with
  | nil => intro i j c c' h; simp at h
  | @keep a a' cs cs' k k' ks ks' hw hk _ ih =>
    intro i j c c' hi hj hc hc' hr
    cases i with
    | zero =>
      cases j with
      | zero =>
        simp only [List.getElem?_cons_zero, Option.some.injEq] at hi hj
        subst hi; subst hj
        exact ⟨k, k', rfl, rfl, hk⟩
      | succ j =>
        exfalso
        simp only [List.getElem?_cons_zero, Option.some.injEq] at hi
        subst hi
        rw [List.take_zero, List.take_succ_cons, shownIn_nil, shownIn_shown (fun h => hc ((without_hidden hw).2 h))] at hr
        omega
    | succ i =>
      cases j with
      | zero =>
        exfalso
        simp only [List.getElem?_cons_zero, Option.some.injEq] at hj
        subst hj
        rw [List.take_zero, List.take_succ_cons, shownIn_nil, shownIn_shown (fun h => hc' ((without_hidden hw).1 h))] at hr
        omega
      | succ j =>
        simp only [List.getElem?_cons_succ] at hi hj ⊢
        refine ih hi hj hc hc' ?_
        rw [List.take_succ_cons, List.take_succ_cons] at hr
        by_cases ha : a.Hidden
        · rwa [shownIn_hidden ha, shownIn_hidden ((without_hidden hw).1 ha)] at hr
        · rw [shownIn_shown ha, shownIn_shown fun h => ha ((without_hidden hw).2 h)] at hr
          omega
  | @drop a cs cs' k ks ks' ha _ ih =>
    intro i j c c' hi hj hc hc' hr
    cases i with
    | zero =>
      simp only [List.getElem?_cons_zero, Option.some.injEq] at hi
      subst hi
      exact absurd ha hc
    | succ i =>
      simp only [List.getElem?_cons_succ] at hi ⊢
      rw [List.take_succ_cons, shownIn_hidden ha] at hr
      exact ih hi hj hc hc' hr

theorem Matched.length {cs cs' : List Node} {ks ks' : List Blueprint} (h : Matched cs cs' ks ks') :
    cs'.length ≤ cs.length ∧ ks.length = cs.length ∧ ks'.length = cs'.length := by
  induction h with
  | nil => exact ⟨le_rfl, rfl, rfl⟩
  | keep _ _ _ ih => simp only [List.length_cons]; omega
  | drop _ _ ih => simp only [List.length_cons]; omega

theorem getLast?_cons_ne {α : Type} (a : α) {l : List α} (h : l ≠ []) : (a :: l).getLast? = l.getLast? := by
  cases l with
  | nil => exact absurd rfl h
  | cons b l => exact List.getLast?_cons_cons

/-- The last elements have the same figures, if none is dropped or the last one is not hidden. -/
theorem Matched.last {cs cs' : List Node} {ks ks' : List Blueprint} (h : Matched cs cs' ks ks')
    (hp : cs.length = cs'.length ∨ ∀ c, cs.getLast? = some c → ¬ c.Hidden) :
    Option.Rel (fun k k' => k.at [] = k'.at []) ks.getLast? ks'.getLast? := by
  induction h with
  | nil => exact .none
  | @keep a a' cs cs' k k' ks ks' hw hk hm ih =>
    have hl := hm.length
    by_cases h0 : cs = []
    · subst h0
      have h1 : ks = [] := List.eq_nil_of_length_eq_zero (by simpa using hl.2.1)
      have h2 : cs' = [] := List.eq_nil_of_length_eq_zero (by simpa using hl.1)
      subst h1; subst h2
      have h3 : ks' = [] := List.eq_nil_of_length_eq_zero (by simpa using hl.2.2)
      subst h3
      exact .some (hk [] [] (.here _ _))
    · have hks : ks ≠ [] := by
        rintro rfl
        exact h0 (List.eq_nil_of_length_eq_zero (by simpa using hl.2.1.symm))
      have ih' := ih (by
        rcases hp with hp | hp
        · left; simpa using hp
        · right
          rwa [getLast?_cons_ne _ h0] at hp)
      have hks' : ks' ≠ [] := by
        rintro rfl
        obtain ⟨x, hx⟩ : ∃ x, ks.getLast? = some x := ⟨_, List.getLast?_eq_getLast_of_ne_nil hks⟩
        rw [hx] at ih'
        cases ih'
      rw [getLast?_cons_ne _ hks, getLast?_cons_ne _ hks']
      exact ih'
  | @drop a cs cs' k ks ks' ha hm ih =>
    have hl := hm.length
    rcases hp with hp | hp
    · simp only [List.length_cons] at hp; omega
    · have h0 : cs ≠ [] := by
        rintro rfl
        exact hp a rfl ha
      have hks : ks ≠ [] := by
        rintro rfl
        exact h0 (List.eq_nil_of_length_eq_zero (by simpa using hl.2.1.symm))
      rw [getLast?_cons_ne _ hks]
      rw [getLast?_cons_ne _ h0] at hp
      exact ih (Or.inr hp)

/-! ## Elements that are left out -/

theorem blank_place {c c' : Node} {q r : List Nat} (h : SamePlace c c' q r) : ∀ (hb : AllBoxed c) (hb' : AllBoxed c') (_ : ¬ c.Hidden) (_ : ¬ c'.Hidden),
    c.blank.at q = some .zero ∧ c'.blank.at r = some .zero := by
  have top : ∀ c : Node, AllBoxed c → ¬ c.Hidden → ∃ ks, c.blank = .mk .zero ks ∧ ks = c.children.map Node.blank := by
    intro c hb hc
    obtain ⟨s, z, l, cs⟩ := c
    obtain ⟨h1, _⟩ := allBoxed_mk.1 hb hc
    cases l with
    | none => exact absurd rfl h1
    | some b => exact ⟨_, rfl, Blue.blankAll_map cs⟩
  have child : ∀ (c x : Node) (i : Nat), AllBoxed c → ¬ c.Hidden → c.children[i]? = some x → AllBoxed x := by
    intro c x i hb hc hi
    obtain ⟨s, z, l, cs⟩ := c
    exact (allBoxed_mk.1 hb hc).2 x (List.mem_of_getElem? hi)
  induction h with
  | here c c' =>
    intro hb hb' hc hc'
    obtain ⟨ks, e, _⟩ := top c hb hc
    obtain ⟨ks', e', _⟩ := top c' hb' hc'
    rw [e, e']
    exact ⟨rfl, rfl⟩
  | @step n m x x' i j q r _ _ hi hj hx hx' _ _ ih =>
    intro hb hb' hc hc'
    obtain ⟨ks, e, hk⟩ := top n hb hc
    obtain ⟨ks', e', hk'⟩ := top m hb' hc'
    obtain ⟨a1, a2⟩ := ih (child n x i hb hc hi) (child m x' j hb' hc' hj) hx hx'
    rw [e, e', hk, hk']
    simp only [Blueprint.at, List.getElem?_map, hi, hj, Option.map_some, Option.bind_some]
    exact ⟨a1, a2⟩

theorem blank_without {c c' : Node} (h : Without c c') (hb : AllBoxed c) (hb' : AllBoxed c') (q r : List Nat) (hp : SamePlace c c' q r) :
    c.blank.at q = c'.blank.at r := by
  by_cases hc : c.Hidden
  · cases hp with
    | here =>
      cases h with
      | hidden h1 h2 h3 =>
        obtain ⟨s, z, l, cs⟩ := c
        obtain ⟨s', z', l', cs'⟩ := c'
        simp only [Node.layout] at h3
        cases l with
        | none => rw [h3.1 rfl]; rfl
        | some b =>
          cases l' with
          | none => exact absurd (h3.2 rfl) (by simp)
          | some b' => rfl
      | shown h1 => exact absurd hc h1
    | step h => exact absurd hc h
  · obtain ⟨h1, h2⟩ := blank_place hp hb hb' hc fun h' => hc ((without_hidden h).2 h')
    rw [h1, h2]

theorem blank_dropping {cs cs' : List Node} (h : Dropping Without cs cs') (hb : ∀ c ∈ cs, AllBoxed c) (hb' : ∀ c ∈ cs', AllBoxed c) :
    Matched cs cs' (blankAll cs) (blankAll cs') := by
  induction h with
  | nil => exact .nil
  | keep hw _ ih =>
    exact .keep hw (blank_without hw (hb _ List.mem_cons_self) (hb' _ List.mem_cons_self))
      (ih (fun c hc => hb c (List.mem_cons_of_mem _ hc)) fun c hc => hb' c (List.mem_cons_of_mem _ hc))
  | drop hh _ ih => exact .drop hh (ih (fun c hc => hb c (List.mem_cons_of_mem _ hc)) hb')

/-! ## Blocks -/

theorem hidden_not_blockish {c : Node} (h : c.Hidden) : c.blockish = false := by
  have h : c.style.get .display = .none := h
  unfold Node.blockish
  rw [h]
  rfl

theorem without_blockish {c c' : Node} (h : Without c c') : c.blockish = c'.blockish := by
  cases h with
  | hidden h1 h2 _ => rw [hidden_not_blockish h1, hidden_not_blockish h2]
  | shown => rfl

theorem dropping_blockish {cs cs' : List Node} (h : Dropping Without cs cs') : cs.any Node.blockish = cs'.any Node.blockish := by
  induction h with
  | nil => rfl
  | keep hw _ ih => simp only [List.any_cons, without_blockish hw, ih]
  | drop hh _ ih => simp only [List.any_cons, hidden_not_blockish hh, ih, Bool.false_or]

/-- What is to be proved of an element and its children. -/
def Kept (fp : FP) (d : Display) (c : Node) : Prop := ∀ (c' : Node) (parent : Option CSS) (r : Surround) (k : Blueprint), Without c c' → AllBoxed c → AllBoxed c' →
  c.plan fp d parent r = some k → ∃ k', c'.plan fp d parent r = some k' ∧ ∀ q r, SamePlace c c' q r → k.at q = k'.at r

theorem flow_kept {s : CSS} {r : Surround} {cs cs' : List Node} (h : Dropping Without cs cs') (ih : ∀ c ∈ cs, Kept fp d c) (hb : ∀ c ∈ cs, AllBoxed c)
    (hb' : ∀ c ∈ cs', AllBoxed c) : ∀ {ks : List Blueprint}, flowPlans fp d s r cs = some ks →
    ∃ ks', flowPlans fp d s r cs' = some ks' ∧ Matched cs cs' ks ks' := by
  induction h with
  | nil => intro ks h; cases h; exact ⟨[], rfl, .nil⟩
  | keep hw _ ih2 =>
    intro ks h
    simp only [flowPlans] at h
    obtain ⟨k, hk, h⟩ := Option.bind_eq_some_iff.1 h
    obtain ⟨js, h1, h⟩ := Option.bind_eq_some_iff.1 h
    cases h
    obtain ⟨k', hk', hkk⟩ := ih _ List.mem_cons_self _ _ _ _ hw (hb _ List.mem_cons_self) (hb' _ List.mem_cons_self) hk
    obtain ⟨js', h1', hm⟩ := ih2 (fun c hc => ih c (List.mem_cons_of_mem _ hc)) (fun c hc => hb c (List.mem_cons_of_mem _ hc))
      (fun c hc => hb' c (List.mem_cons_of_mem _ hc)) h1
    exact ⟨k' :: js', by simp only [flowPlans, hk', h1']; rfl, .keep hw hkk hm⟩
  | drop hh _ ih2 =>
    intro ks h
    simp only [flowPlans] at h
    obtain ⟨k, hk, h⟩ := Option.bind_eq_some_iff.1 h
    obtain ⟨js, h1, h⟩ := Option.bind_eq_some_iff.1 h
    cases h
    obtain ⟨js', h1', hm⟩ := ih2 (fun c hc => ih c (List.mem_cons_of_mem _ hc)) (fun c hc => hb c (List.mem_cons_of_mem _ hc)) hb' h1
    exact ⟨js', h1', .drop hh hm⟩

theorem stack_blank {s : CSS} {r : Surround} {y : Num} {below : Option Int} {cs : List Node} (h : cs.any Node.blockish = false) :
    stackPlans fp d s r y below cs = some (blankAll cs) := by
  cases cs with
  | nil => rfl
  | cons c cs =>
    simp only [List.any_cons, Bool.or_eq_false_iff] at h
    simp only [stackPlans, h.1, h.2, Bool.false_eq_true, if_false]

theorem stack_kept {s : CSS} {r : Surround} {cs cs' : List Node} (h : Dropping Without cs cs') (ih : ∀ c ∈ cs, Kept fp d c) (hb : ∀ c ∈ cs, AllBoxed c)
    (hb' : ∀ c ∈ cs', AllBoxed c) : ∀ {y : Num} {below : Option Int} {ks : List Blueprint}, stackPlans fp d s r y below cs = some ks →
    ∃ ks', stackPlans fp d s r y below cs' = some ks' ∧ Matched cs cs' ks ks' := by
  induction h with
  | nil => intro y below ks h; cases h; exact ⟨[], rfl, .nil⟩
  | @keep c c' cs cs' hw hd ih2 =>
    intro y below ks h
    by_cases hc : c.blockish = true
    · have hc' : c'.blockish = true := by rw [← without_blockish hw]; exact hc
      simp only [stackPlans, hc, if_true] at h
      obtain ⟨k, hk, h⟩ := Option.bind_eq_some_iff.1 h
      obtain ⟨k', hk', hkk⟩ := ih _ List.mem_cons_self _ _ _ _ hw (hb _ List.mem_cons_self) (hb' _ List.mem_cons_self) hk
      cases k with
      | absent => cases h
      | mk f js =>
        have h0 := hkk [] [] (.here _ _)
        cases k' with
        | absent => cases h0
        | mk f' js' =>
          simp only [Blueprint.at, Option.some.injEq] at h0
          subst h0
          simp only at h
          obtain ⟨g, hg, h⟩ := Option.bind_eq_some_iff.1 h
          obtain ⟨t, ht, h⟩ := Option.bind_eq_some_iff.1 h
          obtain ⟨rest, h1, h⟩ := Option.bind_eq_some_iff.1 h
          cases h
          obtain ⟨rest', h1', hm⟩ := ih2 (fun c hc => ih c (List.mem_cons_of_mem _ hc)) (fun c hc => hb c (List.mem_cons_of_mem _ hc))
            (fun c hc => hb' c (List.mem_cons_of_mem _ hc)) h1
          refine ⟨.mk (f.moved fp (g.elim y (y.add fp))) js' :: rest', ?_, .keep hw ?_ hm⟩
          · simp only [stackPlans, hc', if_true, hk']
            show (gapAbove below f >>= _) = _
            rw [hg]
            show (f.tall fp >>= _) = _
            rw [ht]
            show (stackPlans .. >>= _) = _
            rw [h1']
            rfl
          · intro q r hp
            cases hp with
            | here => rfl
            | step a1 a2 a3 a4 a5 a6 a7 a8 => exact hkk _ _ (.step a1 a2 a3 a4 a5 a6 a7 a8)
    · have hany : (c :: cs).any Node.blockish = false := by
        simp only [stackPlans, if_neg hc] at h
        split at h
        · cases h
        · rename_i ha
          simp only [List.any_cons, Bool.or_eq_false_iff]
          exact ⟨by simpa using hc, by simpa using ha⟩
      rw [stack_blank hany] at h
      cases h
      have hany' : (c' :: cs').any Node.blockish = false := by rw [← dropping_blockish (.keep hw hd)]; exact hany
      exact ⟨_, stack_blank hany', blank_dropping (.keep hw hd) hb hb'⟩
  | @drop c cs cs' hh hd ih2 =>
    intro y below ks h
    have hc := hidden_not_blockish hh
    have hany : (c :: cs).any Node.blockish = false := by
      simp only [stackPlans, hc, Bool.false_eq_true, if_false] at h
      split at h
      · cases h
      · rename_i ha
        simp only [List.any_cons, Bool.or_eq_false_iff]
        exact ⟨hc, by simpa using ha⟩
    rw [stack_blank hany] at h
    cases h
    have hany' : cs'.any Node.blockish = false := by rw [← dropping_blockish (.drop hh hd)]; exact hany
    exact ⟨_, stack_blank hany', blank_dropping (.drop hh hd) hb hb'⟩

/-! ## Elements -/

theorem blockLevel_manner {n : Node} (h : ¬ n.BlockLevel) : n.manner ≠ some .block := by
  intro hm
  apply h
  unfold Node.manner at hm
  split at hm
  · cases hm
  · split at hm
    · split at hm <;> cases hm
    · split at hm
      · rename_i hb
        simp only [Bool.and_eq_true] at hb
        have hb := hb.1
        simp only [Node.blockish, List.any_cons, List.any_nil, Bool.or_eq_true, Bool.or_false, isKw_iff] at hb
        exact hb
      · cases hm

theorem along_last {n m : Node} (hs : m.style = n.style) (hz : m.intrinsic = n.intrinsic) {parent : Option CSS} {H w : Option Num}
    {ks ks' : List Blueprint} {k : Manner}
    (h : k ≠ .block ∨ n.style.get .height ≠ kw "auto" ∨ Option.Rel (fun k k' => k.at [] = k'.at []) ks.getLast? ks'.getLast?) :
    m.along fp d parent H w ks' k = n.along fp d parent H w ks k := by
  cases k with
  | inline => simp only [Node.along, hz]
  | image => simp only [Node.along, hs, hz]
  | block =>
    simp only [Node.along, hs]
    split
    · rfl
    · rename_i ha
      have hr : Option.Rel (fun k k' => k.at [] = k'.at []) ks.getLast? ks'.getLast? := by
        rcases h with h | h | h
        · exact absurd rfl h
        · simp only [Bool.not_eq_true', Bool.not_eq_false, isKw_iff] at ha
          exact absurd ha h
        · exact h
      cases h1 : ks.getLast? with
      | none =>
        rw [h1] at hr
        cases h2 : ks'.getLast? with
        | none => rfl
        | some x => rw [h2] at hr; cases hr
      | some x =>
        rw [h1] at hr
        cases h2 : ks'.getLast? with
        | none => rw [h2] at hr; cases hr
        | some x' =>
          rw [h2] at hr
          cases hr with
          | some hr =>
            cases x <;> cases x' <;> simp only [Blueprint.at] at hr
            · rfl
            · cases hr
            · cases hr
            · cases hr; rfl

theorem first_kept {s : CSS} {r : Surround} {y : Num} {below : Option Int} {cs cs' : List Node} {ks ks' : List Blueprint}
    (h : stackPlans fp d s r y below cs = some ks) (hc : cs.any Node.blockish = true) (hm : Matched cs cs' ks ks') :
    Option.Rel (fun k k' => k.at [] = k'.at []) ks.head? ks'.head? := by
  cases hm with
  | nil => exact .none
  | keep _ hk _ => exact .some (hk [] [] (.here _ _))
  | drop hh _ =>
    simp only [List.any_cons, hidden_not_blockish hh, Bool.false_or] at hc
    simp only [stackPlans, hidden_not_blockish hh, hc, Bool.false_eq_true, if_false, if_true] at h
    cases h

theorem firstAbove_head {b : Bool} {own : Int} {ks ks' : List Blueprint} (h : Option.Rel (fun k k' => k.at [] = k'.at []) ks.head? ks'.head?) :
    firstAbove b ks' own = firstAbove b ks own := by
  cases b
  · rfl
  · match ks, ks', h with
    | [], [], _ => rfl
    | .absent :: _, .absent :: _, _ => rfl
    | .mk f _ :: _, .mk f' _ :: _, .some h => cases h; rfl
    | .absent :: _, .mk f' _ :: _, .some h => cases h
    | .mk f _ :: _, .absent :: _, .some h => cases h

theorem lastBelow_last {b : Bool} {own : Int} {ks ks' : List Blueprint} (h : Option.Rel (fun k k' => k.at [] = k'.at []) ks.getLast? ks'.getLast?) :
    lastBelow b ks' own = lastBelow b ks own := by
  unfold lastBelow
  cases b
  · rfl
  · generalize ks.getLast? = o at h
    generalize ks'.getLast? = o' at h
    match o, o', h with
    | none, none, _ => rfl
    | some .absent, some .absent, _ => rfl
    | some (.mk f _), some (.mk f' _), .some h => cases h; rfl
    | some .absent, some (.mk f' _), .some h => cases h
    | some (.mk f _), some .absent, .some h => cases h

theorem plan_kept (n : Node) : Kept fp d n := by
  induction n using Node.ind with
  | h s z l cs ih =>
    intro m parent r k hw hb hb' h
    cases hw with
    | hidden h1 h2 h3 =>
      obtain ⟨s', z', l', cs'⟩ := m
      have h1 : s.get .display = .none := h1
      have h2 : s'.get .display = .none := h2
      simp only [Node.plan, h1] at h
      cases h
      refine ⟨.absent, by simp only [Node.plan, h2]; rfl, fun q r hp => ?_⟩
      cases hp with
      | here => rfl
      | step a1 => exact absurd h1 a1
    | @shown _ _ _ l' _ cs' hs hd hp =>
      obtain ⟨_, hbc⟩ := allBoxed_mk.1 hb hs
      obtain ⟨_, hbc'⟩ := allBoxed_mk.1 hb' hs
      have hpiles : (Node.mk s z l cs).piles = (Node.mk s z l' cs').piles := by
        simp only [Node.piles, Node.style, Node.intrinsic, Node.children, dropping_blockish hd]
      have hlast : ∀ {k : Manner} {ks ks' : List Blueprint} {H w : Option Num}, (Node.mk s z l cs).manner = some k → Matched cs cs' ks ks' →
          (Node.mk s z l' cs').along fp d parent H w ks' k = (Node.mk s z l cs).along fp d parent H w ks k := by
        intro k ks ks' H w hk hm
        refine along_last rfl rfl ?_
        rcases hp with hp | hp | hp | hp
        · exact Or.inr (Or.inr (hm.last (Or.inl hp)))
        · exact Or.inl fun e => blockLevel_manner hp (by rw [hk, e])
        · exact Or.inr (Or.inl hp)
        · exact Or.inr (Or.inr (hm.last (Or.inr hp)))
      have hn : (s.get .display).isNone = false := by
        cases hx : s.get .display <;> first | rfl | exact absurd hx hs
      simp only [Node.plan, hn, Bool.false_eq_true, if_false] at h
      obtain ⟨k, hk, h⟩ := Option.bind_eq_some_iff.1 h
      obtain ⟨⟨m, b, p⟩, he, h⟩ := Option.bind_eq_some_iff.1 h
      obtain ⟨⟨w, left, right⟩, ha, h⟩ := Option.bind_eq_some_iff.1 h
      obtain ⟨⟨top, bottom⟩, hu, h⟩ := Option.bind_eq_some_iff.1 h
      obtain ⟨guess, hg, h⟩ := Option.bind_eq_some_iff.1 h
      obtain ⟨kids, hkids, h⟩ := Option.bind_eq_some_iff.1 h
      obtain ⟨hh, hhh, h⟩ := Option.bind_eq_some_iff.1 h
      obtain ⟨⟨x, y⟩, hxy, h⟩ := Option.bind_eq_some_iff.1 h
      cases h
      have hg' : (if (s.get .position).isKw "relative" then (Node.mk s z l' cs').along fp d parent r.height w (blankAll cs') k else some (some (.int 0))) = some guess := by
        rw [hlast hk (blank_dropping hd hbc hbc')]
        exact hg
      obtain ⟨kids', hkids', hm⟩ : ∃ kids', (if (Node.mk s z l' cs').piles then
          stackPlans fp d s ⟨w, guess, some (if k = .inline then .int 0 else (Num.int 0).replacing (left.plus fp [b.left, p.left]),
            if (s.get .position).isKw "relative" then (Num.int 0).replacing ((Num.int 0).add fp (lowering fp top b p k)) else .int 0)⟩ (.int 0) none cs'
          else flowPlans fp d s ⟨w, guess, some (if k = .inline then .int 0 else (Num.int 0).replacing (left.plus fp [b.left, p.left]),
            if (s.get .position).isKw "relative" then (Num.int 0).replacing ((Num.int 0).add fp (lowering fp top b p k)) else .int 0)⟩ cs') = some kids' ∧
          Matched cs cs' kids kids' := by
        rw [← hpiles]
        split at hkids
        · rename_i h1; rw [if_pos h1]; exact stack_kept hd ih hbc hbc' hkids
        · rename_i h1; rw [if_neg h1]; exact flow_kept hd ih hbc hbc' hkids
      have hhh' := (hlast (H := r.height) (w := w) hk hm).trans hhh
      refine ⟨.mk
        { x := x, y := y, width := w, height := hh, margin := ⟨.num top, .num right, bottom, .num left⟩, border := b, padding := p,
          above := firstAbove (Node.mk s z l cs).piles kids m.top.collapsible,
          below := lastBelow (k = .block && (s.get .height).isKw "auto") kids m.bottom.collapsible } kids', ?_, ?_⟩
      · simp only [Node.plan, hn, Bool.false_eq_true, if_false]
        show ((Node.mk s z l cs).manner >>= _) = _
        rw [hk]
        show (s.edges fp d r.width r.height >>= _) = _
        rw [he]
        show ((Node.mk s z l cs).across fp d r.width m b p k >>= _) = _
        rw [ha]
        show (upright m k >>= _) = _
        rw [hu]
        refine (congrArg (· >>= _) hg').trans ?_
        refine (congrArg (· >>= _) hkids').trans ?_
        refine (congrArg (· >>= _) hhh').trans ?_
        refine (congrArg (· >>= _) hxy).trans ?_
        show some _ = some _
        have e1 : firstAbove (Node.mk s z l' cs').piles kids' m.top.collapsible = firstAbove (Node.mk s z l cs).piles kids m.top.collapsible := by
          rw [← hpiles]
          by_cases hpl : (Node.mk s z l cs).piles = true
          · rw [if_pos hpl] at hkids
            have hany : cs.any Node.blockish = true := by
              simp only [Node.piles, Bool.and_eq_true] at hpl
              exact hpl.2
            exact firstAbove_head (first_kept hkids hany hm)
          · rw [Bool.not_eq_true] at hpl
            rw [hpl]
            rfl
        have e2 : lastBelow (k = .block && (s.get .height).isKw "auto") kids' m.bottom.collapsible =
            lastBelow (k = .block && (s.get .height).isKw "auto") kids m.bottom.collapsible := by
          by_cases hka : (decide (k = .block) && (s.get .height).isKw "auto") = true
          · simp only [Bool.and_eq_true, decide_eq_true_eq, isKw_iff] at hka
            have hr : Option.Rel (fun k k' => k.at [] = k'.at []) kids.getLast? kids'.getLast? := by
              rcases hp with hp | hp | hp | hp
              · exact hm.last (Or.inl hp)
              · exact absurd (by rw [hk, hka.1]) (blockLevel_manner hp)
              · exact absurd hka.2 hp
              · exact hm.last (Or.inr hp)
            exact lastBelow_last hr
          · rw [Bool.not_eq_true] at hka
            rw [hka]
            rfl
        rw [e1, e2]
      · intro q r hp
        cases hp with
        | here => rfl
        | step a1 a2 a3 a4 a5 a6 a7 a8 =>
          obtain ⟨k, k', e, e', hkk⟩ := hm.get a3 a4 a5 a6 a7
          simp only [Blueprint.at, e, e', Option.bind_some]
          exact hkk _ _ a8

end Colosseum
