import Verif.Lemmas.Permute
import Verif.Props.Units

/-!
# C29–C32: the shorthand properties `border`, `border_<side>` and `outline`
-/

namespace Colosseum

/-- The parts `xs` are of pairwise different kinds; `kws` gives the kind and the parsed value of each. -/
def OfKinds (E : Env) (s : SH) (xs : List Val) (kws : List (Part × Val)) : Prop :=
  List.Forall₂ (fun x (kw : Part × Val) => FallsTo E s x kw.1 kw.2) xs kws ∧ (kws.map Prod.fst).Nodup

/-! ## C30 -/

theorem parse_iff (E : Env) (at_ : List Nat) (s : SH) (v : Val) :
    (∃ dict, parseShorthand E at_ s v = .ok dict) ↔
      ∃ xs, PartsOf v xs ∧ xs.length ≤ 3 ∧ (∃ kws, OfKinds E s xs kws) ∧ ∀ x ∈ xs, Quiet s x := by
  by_cases hp : ∃ xs, PartsOf v xs
  · obtain ⟨xs, hp⟩ := hp
    constructor
    · rintro ⟨dict, h⟩
      rcases setSH_acts (E := E) (at_ := at_) (d := ⟨CSS.empty, .unbound⟩) (s := s) hp with ⟨e, h', _⟩ | ⟨kws, _, hF, hN, hl, _⟩
      · rw [h] at h'; cases h'
      · rw [parts_parse hp] at h
        exact ⟨xs, hp, hl, ⟨kws, hF, hN⟩, parseParts_quiet xs h⟩
    · rintro ⟨ys, hp', hl, ⟨kws, hF, hN⟩, hq⟩
      rw [parts_parse hp']
      exact parseParts_succeeds ys kws hF hq (by omega) (by simpa using hN)
  · constructor
    · rintro ⟨dict, h⟩
      obtain ⟨e, h'⟩ := not_parts (E := E) (at_ := at_) (s := s) hp
      rw [h] at h'; cases h'
    · rintro ⟨xs, h, _⟩; exact absurd ⟨xs, h⟩ hp

/-- C30. Exactly which values a shorthand accepts, in every state of a declaration whose node has a box
or which belongs to no node: the non-empty texts and sequences of at most three parts, of pairwise
different kinds. Two exceptions: a width given as an angle (C09) is recognised as a width and then
refused by the width property, and `outline` refuses infinite widths. -/
theorem C30_accepted (E : Env) (at_ : List Nat) (d : Decl) (s : SH) (v : Val) (hl : d.link ≠ .noBox) :
    (∃ d', d.setAttr E at_ (.sh s) v = (d', none)) ↔
      ∃ xs, PartsOf v xs ∧ xs.length ≤ 3 ∧
        (∃ kws, OfKinds E s xs kws ∧ ∀ kw ∈ kws, ¬ IsAngle kw.2) ∧
        (s = .outline → ∀ x ∈ xs, ¬ Boundless x) := by
  have hset : d.setAttr E at_ (.sh s) v = d.setSH E at_ s v := rfl
  rw [hset]
  constructor
  · rintro ⟨d', h⟩
    have hok : ∃ dict, parseShorthand E at_ s v = .ok dict := by
      cases hp : parseShorthand E at_ s v with
      | ok dict => exact ⟨dict, rfl⟩
      | error e =>
        unfold Decl.setSH at h
        rw [hp] at h
        cases e <;> cases h
    obtain ⟨xs, hp, hlen, _, hq⟩ := (parse_iff ..).1 hok
    rcases setSH_acts (E := E) (at_ := at_) (d := d) (s := s) hp with ⟨e, _, e', h'⟩ | ⟨kws, hk, hF, hN, _, h'⟩
    · rw [h] at h'; cases h'
    · refine ⟨xs, hp, hlen, ⟨kws, ⟨hF, hN⟩, ?_⟩, fun hs x hx => hq x hx hs⟩
      rintro ⟨k, w⟩ hkw ha
      rw [h'] at h
      obtain ⟨d1, h1, _⟩ := andThen_none h
      obtain ⟨hd, _⟩ := runActs_done (by rw [shActs_props]; exact covered_nodup s) (by
        intro a ha b hb
        refine covered_follows s _ ?_ _ ?_ <;> rw [← shActs_props (9 :: at_) kws]
        · exact List.mem_map_of_mem ha
        · exact List.mem_map_of_mem hb) h1
      obtain ⟨a, hm⟩ := (shActs_mem (9 :: at_) kws (partProp_mem s k)).1 w ((lookup_mem hN).2 hkw)
      obtain ⟨x, _, hx⟩ := forall₂_mem hF hkw
      obtain ⟨_, e, he⟩ := (revalidate (E := E) (b := a) (partProp_mem s k) (fallsTo_canonical hx)).2 ha
      obtain ⟨u, hu, _⟩ := hd _ hm
      rw [he] at hu
      cases hu
  · rintro ⟨xs, hp, hlen, ⟨kws, hS, hA⟩, hq⟩
    obtain ⟨dict, hd⟩ := (parse_iff E at_ s v).2 ⟨xs, hp, hlen, ⟨kws, hS⟩, fun x hx hs => hq hs x hx⟩
    rcases setSH_acts (E := E) (at_ := at_) (d := d) (s := s) hp with ⟨e, h', _⟩ | ⟨kws', hk, hF, hN, _, h'⟩
    · rw [hd] at h'; cases h'
    · rw [h']
      -- the kinds and values are determined by the parts
      have noAngle : ∀ k w, lookupPart k kws' = some w → Canonical (partProp s k) w ∧ ¬ IsAngle w := by
        intro k w hw
        rw [lookup_mem hN] at hw
        obtain ⟨x, hx, hf⟩ := forall₂_mem hF hw
        refine ⟨fallsTo_canonical hf, ?_⟩
        obtain ⟨⟨k', w'⟩, hm, hf'⟩ := forall₂_mem hS.1.flip hx
        obtain ⟨rfl, he⟩ := fallsTo_unique hf hf'
        rintro ⟨l, y, rfl⟩
        refine hA _ hm ⟨l, y, ?_⟩
        cases w' <;> cases he
        rfl
      obtain ⟨d1, h1, h2⟩ := runActs_succeeds (E := E) (as := shActs (9 :: at_) kws' s) hl (by
        intro a ha
        obtain ⟨k, p, hp, rfl | ⟨b, w, rfl, hw⟩⟩ := mem_shActs ha
        · trivial
        · obtain ⟨hc, hn⟩ := noAngle k w hw
          exact ⟨w, (revalidate hp hc).1 hn⟩)
      rw [h1]
      exact ⟨_, Prod.ext rfl (mark_link h2).2⟩

/-- The value recorded for each kind of part is the parsed form of the part of that kind. -/
theorem C30_recorded (E : Env) (at_ : List Nat) (s : SH) (v : Val) (dict : List (Part × Val))
    (h : parseShorthand E at_ s v = .ok dict) : ∃ xs, PartsOf v xs ∧ OfKinds E s xs dict := by
  obtain ⟨xs, hp, _⟩ := (parse_iff ..).1 ⟨dict, h⟩
  rcases setSH_acts (E := E) (at_ := at_) (d := ⟨CSS.empty, .unbound⟩) (s := s) hp with ⟨e, h', _⟩ | ⟨kws, h', hF, hN, hl, _⟩
  · rw [h] at h'; cases h'
  · rw [h] at h'; cases h'
    exact ⟨xs, hp, hF, hN⟩

/-- What neither is a text nor a sequence, and empty ones, is refused. -/
theorem C30_neither (E : Env) (at_ : List Nat) (d : Decl) (s : SH) (v : Val) (h : ¬ ∃ xs, PartsOf v xs) :
    ∃ e, d.setAttr E at_ (.sh s) v = (d, some e) := by
  show ∃ e, d.setSH E at_ s v = _
  obtain ⟨e, he⟩ := not_parts (E := E) (at_ := at_) (s := s) h
  unfold Decl.setSH
  rw [he]
  cases e <;> exact ⟨_, rfl⟩

/-- `"90deg"` is an angle, which the parser of lengths takes. -/
theorem units_90deg (E : Env) (L : E.fp.Laws) : ∃ x, units E.fp (.str (lit "90deg")) = .ok ⟨.ang .deg, x⟩ := by
  have hx : (parseFloat E.fp (lit "90")).isSome = true := by
    rw [parseFloat_some E.fp FP.exact]; decide +kernel
  obtain ⟨x, hx⟩ := Option.isSome_iff_exists.1 hx
  exact ⟨x, C02_suffix_exact E.fp L (lit "90") "deg" (.ang .deg) x (by decide) (parseFloat_iff.1 hx)⟩

/-- C30 as stated is false: `border_top = "90deg"` has one part, which the width grammar accepts; the
assignment is refused. -/
theorem C30_false_angle (E : Env) (L : E.fp.Laws) (d : Decl) (hl : d.link ≠ .noBox) :
    (∃ k w, FallsTo E (.borderSide .top) (.str (lit "90deg")) k w) ∧
    ¬ ∃ d', d.setAttr E [0] (.sh (.borderSide .top)) (.str (lit "90deg")) = (d', none) := by
  obtain ⟨x, hx⟩ := units_90deg E L
  have hf : FallsTo E (.borderSide .top) (.str (lit "90deg")) .width (.unit ⟨.ang .deg, x⟩) :=
    ⟨[], [.style, .color], rfl, by simp, fun p hp => ⟨[], by
      simp only [partProps, List.mem_singleton] at hp
      subst hp
      exact Or.inr ⟨.length, rfl, by simp only [Kind.parse, hx]; rfl⟩⟩⟩
  refine ⟨⟨_, _, hf⟩, fun h => ?_⟩
  obtain ⟨xs, hp, _, ⟨kws, hS, hA⟩, _⟩ := (C30_accepted _ _ _ _ _ hl).1 h
  have e : xs = [.str (lit "90deg")] := by
    cases hp with
    | text t ws _ hw =>
      have : splitWs (lit "90deg") = [lit "90deg"] := by decide +kernel
      rw [hw.splitWs] at this
      rw [this]; rfl
  subst e
  obtain ⟨hF, _⟩ := hS
  cases hF with
  | cons h1 h2 =>
    obtain ⟨_, he⟩ := fallsTo_unique h1 hf
    refine hA _ (List.mem_cons_self ..) ⟨.deg, x, ?_⟩
    revert he
    generalize Prod.snd _ = w
    intro he
    cases w <;> cases he
    rfl

/-- C30 as stated is false: an infinite width is accepted by `outline_width` but not by `outline`. -/
theorem C30_false_infinite (E : Env) (d : Decl) :
    (∃ k w, FallsTo E .outline (.unit ⟨.len .px, .inf false⟩) k w) ∧
    d.setAttr E [0] (.sh .outline) (.seq true [.unit ⟨.len .px, .inf false⟩]) = (d, some .overflow) := by
  refine ⟨⟨.width, .unit ⟨.len .px, .inf false⟩, fallsTo_iff.2 ⟨[.color, .style], [], rfl, ?_, [], ?_⟩⟩, rfl⟩
  · intro j hj
    rintro ⟨a, w, h⟩
    rcases h with h | ⟨kd, hk, h⟩
    · cases h
    · rw [kindOf_part] at hk
      simp only [List.mem_cons, List.not_mem_nil, or_false] at hj
      rcases hj with rfl | rfl <;> cases hk
      cases h
  · exact Or.inr ⟨.length, rfl, rfl⟩

/-- `border = (2, "solid", "red")` is accepted: three parts of different kinds. -/
example (E : Env) : ∃ d', (Decl.mk CSS.empty .unbound).setAttr E [0] (.sh .border)
      (.seq true [.num (.fin (.int 2)), .str (lit "solid"), .str (lit "red")]) = (d', none) ∧
    d'.css (.borderWidth .left) = some (.unit ⟨.len .px, .fin (.int 2)⟩) ∧
    d'.css (.borderStyle .left) = some (.str (lit "solid")) ∧
    d'.css (.borderColor .left) = namedColor (lit "red") := ⟨_, rfl, rfl, rfl, rfl⟩

/-! ## C29 -/

/-- The objects created by the operation labelled `at_` are not in the declaration yet. -/
def New (at_ : List Nat) (d : Decl) : Prop := ∀ p r c, d.css p = some (.color r c) → ∀ i, r ≠ .heap (i :: at_)

theorem ofKinds_perm {E : Env} {s : SH} {xs ys : List Val} (hp : xs.Perm ys) (h : ∃ kws, OfKinds E s xs kws) :
    ∃ kws, OfKinds E s ys kws := by
  obtain ⟨kws, hF, hN⟩ := h
  obtain ⟨kws', h1, h2⟩ := List.perm_comp_forall₂ hp.symm hF
  exact ⟨kws', h1, (h2.symm.map Prod.fst).nodup_iff.1 hN⟩

/-- C29. Two values with the same parts in different orders have the same effect on every declaration:
both assignments succeed or both raise, and the states they leave are the same up to the identity of
the colour objects they create. -/
theorem C29_any_order (E : Env) (at_ : List Nat) (d : Decl) (s : SH) (v v' : Val) (xs ys : List Val)
    (hv : PartsOf v xs) (hv' : PartsOf v' ys) (hp : xs.Perm ys) (hn : New at_ d) :
    ((d.setAttr E at_ (.sh s) v).2 = none ↔ (d.setAttr E at_ (.sh s) v').2 = none) ∧
    (d.setAttr E at_ (.sh s) v).1.Like (d.setAttr E at_ (.sh s) v').1 := by
  show ((d.setSH E at_ s v).2 = none ↔ (d.setSH E at_ s v').2 = none) ∧ (d.setSH E at_ s v).1.Like (d.setSH E at_ s v').1
  have unique : ∀ {v xs ys}, PartsOf v xs → PartsOf v ys → xs = ys := by
    intro v xs ys h h'
    cases h with
    | text t ws ht hw => cases h' with | text _ _ _ hw' => rw [← hw.splitWs, ← hw'.splitWs]
    | seq => cases h'; rfl
    | cursor => cases h'; rfl
  have iff : (∃ dict, parseShorthand E at_ s v = .ok dict) ↔ ∃ dict, parseShorthand E at_ s v' = .ok dict := by
    rw [parse_iff, parse_iff]
    constructor
    · rintro ⟨zs, h1, h2, h3, h4⟩
      rw [unique h1 hv] at h2 h3 h4
      exact ⟨ys, hv', hp.length_eq ▸ h2, ofKinds_perm hp h3, fun x hx => h4 x (hp.mem_iff.2 hx)⟩
    · rintro ⟨zs, h1, h2, h3, h4⟩
      rw [unique h1 hv'] at h2 h3 h4
      exact ⟨xs, hv, hp.length_eq ▸ h2, ofKinds_perm hp.symm h3, fun x hx => h4 x (hp.mem_iff.1 hx)⟩
  rcases setSH_acts (E := E) (at_ := at_) (d := d) (s := s) hv with ⟨e, h1, e1, h2⟩ | ⟨kws, h1, hF, hN, hl, h2⟩
  · rcases setSH_acts (E := E) (at_ := at_) (d := d) (s := s) hv' with ⟨e', h3, e2, h4⟩ | ⟨kws', h3, _⟩
    · rw [h2, h4]
      exact ⟨by simp, rfl, fun _ => rfl⟩
    · obtain ⟨_, h⟩ := iff.2 ⟨_, h3⟩
      rw [h1] at h; cases h
  · rcases setSH_acts (E := E) (at_ := at_) (d := d) (s := s) hv' with ⟨e', h3, e2, h4⟩ | ⟨kws', h3, hF', hN', hl', h4⟩
    · obtain ⟨_, h⟩ := iff.1 ⟨_, h1⟩
      rw [h3] at h; cases h
    · rw [parts_parse hv] at h1
      rw [parts_parse hv'] at h3
      obtain ⟨k1, e1, hL⟩ := parseParts_label xs h1
      obtain ⟨k2, e2, hL'⟩ := parseParts_label ys h3
      rw [List.nil_append] at e1 e2
      subst e1 e2
      -- the values found for a kind
      have found : ∀ {xs ys kws kws'}, xs.Perm ys → (kws.map Prod.fst).Nodup → (kws'.map Prod.fst).Nodup →
          List.Forall₂ (fun x (kw : Part × Val) => FallsTo E s x kw.1 kw.2 ∧
            ∃ i, Accepts E (i :: at_) (partProp s kw.1) x kw.2) xs kws →
          List.Forall₂ (fun x (kw : Part × Val) => FallsTo E s x kw.1 kw.2 ∧
            ∃ i, Accepts E (i :: at_) (partProp s kw.1) x kw.2) ys kws' →
          ∀ k w, lookupPart k kws = some w → ∃ w', lookupPart k kws' = some w' ∧
            (w = w' ∨ ∃ i j c, w = .color (.heap (i :: at_)) c ∧ w' = .color (.heap (j :: at_)) c) := by
        intro xs ys kws kws' hp hN hN' hL hL' k w hw
        obtain ⟨x, hx, hf, i, ha⟩ := forall₂_mem hL ((lookup_mem hN).1 hw)
        obtain ⟨⟨k', w'⟩, hm, hf', j, ha'⟩ := forall₂_mem hL'.flip (hp.mem_iff.1 hx)
        obtain ⟨rfl, _⟩ := fallsTo_unique hf hf'
        refine ⟨w', (lookup_mem hN').2 hm, ?_⟩
        rcases accepts_twice ha ha' with h | ⟨c, h, h'⟩
        · exact Or.inl h
        · exact Or.inr ⟨i, j, c, h, h'⟩
      have same : ∀ k, SameParts d.css s k (lookupPart k kws) (lookupPart k kws') := by
        intro k
        cases hw : lookupPart k kws with
        | none =>
          cases hw' : lookupPart k kws' with
          | none => exact Or.inl rfl
          | some w' =>
            obtain ⟨w, h, _⟩ := found hp.symm hN' hN hL' hL k w' hw'
            rw [hw] at h; cases h
        | some w =>
          obtain ⟨w', hw', h⟩ := found hp hN hN' hL hL' k w hw
          rw [hw']
          rcases h with rfl | ⟨i, j, c, rfl, rfl⟩
          · exact Or.inl rfl
          · refine Or.inr ⟨?_, _, _, c, rfl, rfl, fun p _ t z ht => ⟨hn p t z ht i, hn p t z ht j⟩⟩
            obtain ⟨x, _, hf, _⟩ := forall₂_mem hL ((lookup_mem hN).1 hw)
            rcases fallsTo_canonical hf with hk | ⟨kd, hk, hv⟩
            · rcases keyword_cases hk with ⟨t, _, e⟩ | ⟨e, _⟩
              · simp only at e; unfold keywordVal at e; split at e <;> cases e
              · cases e
            · rw [kindOf_part] at hk
              cases k <;> cases hk
              · obtain ⟨u, e⟩ := hv; cases e
              · rfl
      rw [h2, h4]
      obtain ⟨h5, h6⟩ := acts_twin (E := E) (shActs_twin (9 :: at_) same) (by rw [shActs_props]; exact covered_nodup s)
        (d := d) (e := d) ⟨rfl, fun _ => rfl⟩ fun _ _ => ⟨rfl, rfl⟩
      revert h5 h6
      generalize runActs E (shActs (9 :: at_) kws s) d = o
      generalize runActs E (shActs (9 :: at_) kws' s) d = o'
      obtain ⟨d1, e1⟩ := o
      obtain ⟨d2, e2⟩ := o'
      rintro h5 h6
      simp only at h5 h6
      subst h6
      cases e1 with
      | some e => exact ⟨Iff.rfl, h5⟩
      | none =>
        obtain ⟨h7, h8⟩ := like_mark h5
        exact ⟨by simp only [Out.andThen, h8], h7⟩

/-- `"solid red"` and `"red solid"` meet the hypotheses on a fresh declaration. -/
example : PartsOf (.str (lit "red solid")) [.str (lit "red"), .str (lit "solid")] ∧
    PartsOf (.seq true [.str (lit "solid"), .str (lit "red")]) [.str (lit "solid"), .str (lit "red")] ∧
    New [0] ⟨CSS.empty, .unbound⟩ :=
  ⟨.text _ [lit "red", lit "solid"] (by decide) ((splitWs_iff ..).1 (by decide +kernel)), .seq _ _ (by simp),
    fun _ _ _ h => by cases h⟩

/-- The exception itself does depend on the order of the parts: `border = ("bogus", "")` raises
`ValueError`, `border = ("", "bogus")` raises `IndexError`. -/
theorem C29_false_exception (E : Env) (d : Decl) :
    d.setAttr E [0] (.sh .border) (.seq true [.str (lit "bogus"), .str []]) = (d, some .value) ∧
    d.setAttr E [0] (.sh .border) (.seq true [.str [], .str (lit "bogus")]) = (d, some .index) :=
  ⟨rfl, rfl⟩

/-! ## C31 -/

/-- C31. In every reachable state, after a successful assignment to a shorthand: the properties of each
kind mentioned read as the parsed part (or are left alone because what they read as already equals it),
those of each kind not mentioned are unset and read as their initial value, and nothing else is touched.
Initial values are relative to the values of the properties they follow. -/
theorem C31_resets (E : Env) (at_ : List Nat) (d d' : Decl) (hr : Reachable E d) (s : SH) (v : Val)
    (h : d.setAttr E at_ (.sh s) v = (d', none)) :
    ∃ xs kws, PartsOf v xs ∧ OfKinds E s xs kws ∧
      (∀ k w, (k, w) ∈ kws → ∀ p ∈ partProps s k,
        d'.Reads p w ∨ (d'.css p = d.css p ∧ ∃ u, d.Reads p u ∧ w.pyEq u = true)) ∧
      (∀ k, k ∉ kws.map Prod.fst → ∀ p ∈ partProps s k,
        d'.css p = none ∧ ∃ f, (∀ q, d'.Reads q (f q)) ∧ d'.Reads p (cssInitial f p)) ∧
      ∀ q, (∀ k, q ∉ partProps s k) → d'.css q = d.css q := by
  have h : d.setSH E at_ s v = (d', none) := h
  have hc' : d'.css.Canon := by
    have := (canon_stable E).setSH (at_ := at_) s v (canon_reachable hr)
    rwa [h] at this
  have hp : ∃ xs, PartsOf v xs := by
    by_contra hp
    obtain ⟨e, he⟩ := C30_neither E at_ d s v hp
    have he : d.setSH E at_ s v = _ := he
    rw [h] at he; cases he
  obtain ⟨xs, hp⟩ := hp
  rcases setSH_acts (E := E) (at_ := at_) (d := d) (s := s) hp with ⟨_, _, _, h'⟩ | ⟨kws, _, hF, hN, _, h'⟩
  · rw [h] at h'; cases h'
  rw [h] at h'
  obtain ⟨d1, h1, h2⟩ := andThen_none h'.symm
  have hcss : d'.css = d1.css := by
    have := markDirty_css d1
    rw [h2] at this
    exact this
  obtain ⟨hd, ho⟩ := runActs_done (by rw [shActs_props]; exact covered_nodup s) (by
    intro a ha b hb
    refine covered_follows s _ ?_ _ ?_ <;> rw [← shActs_props (9 :: at_) kws]
    · exact List.mem_map_of_mem ha
    · exact List.mem_map_of_mem hb) h1
  rw [← hcss] at hd ho
  refine ⟨xs, kws, hp, ⟨hF, hN⟩, ?_, ?_, ?_⟩
  · intro k w hkw p hpk
    obtain ⟨a, hm⟩ := (shActs_mem (9 :: at_) kws hpk).1 w ((lookup_mem hN).2 hkw)
    obtain ⟨x, _, hx⟩ := forall₂_mem hF hkw
    obtain ⟨u, hu, ht⟩ := hd _ hm
    obtain ⟨r1, r2⟩ := revalidate (E := E) (b := a) hpk (fallsTo_canonical hx)
    by_cases ha : IsAngle w
    · obtain ⟨_, e, he⟩ := r2 ha
      rw [he] at hu; cases hu
    · rw [r1 ha] at hu
      cases hu
      exact took_reads hr hc' ht
  · intro k hk p hpk
    have hnone : lookupPart k kws = none := by
      cases hl : lookupPart k kws with
      | none => rfl
      | some w => exact absurd (List.mem_map_of_mem (f := Prod.fst) ((lookup_mem hN).1 hl)) hk
    have h0 : d'.css p = none := hd _ ((shActs_mem (9 :: at_) kws hpk).2 hnone)
    refine ⟨h0, d'.css.value, fun q => read_value hc' q, ?_⟩
    rw [Decl.Reads, read_value hc', CSS.value, h0, Option.getD_none]
    cases p <;> rfl
  · intro q hq
    refine ho q ?_
    rw [shActs_props, mem_covered]
    rintro ⟨k, hk⟩
    exact hq k hk

/-- `border_top = "solid"` after `border_top_width = 2` and `border_left_width = 3`: the width of the
top border is reset, that of the left border stays. -/
example (E : Env) : ∃ d d', Reachable E d ∧
    d.css.read (.borderWidth .top) = .ok (.unit ⟨.len .px, .fin (.int 2)⟩) ∧
    d.setAttr E [2] (.sh (.borderSide .top)) (.str (lit "solid")) = (d', none) ∧
    d'.css.read (.borderWidth .top) = .ok (.unit ⟨.len .px, .fin (.int 0)⟩) ∧
    d'.css.read (.borderStyle .top) = .ok (.str (lit "solid")) ∧
    d'.css.read (.borderWidth .left) = .ok (.unit ⟨.len .px, .fin (.int 3)⟩) :=
  ⟨_, _, ⟨[.setAttr (.lh (.borderWidth .top)) (.num (.fin (.int 2))),
    .setAttr (.lh (.borderWidth .left)) (.num (.fin (.int 3)))], rfl⟩, rfl, rfl, rfl, rfl, rfl⟩

/-! ## C32 -/

/-- C32. Full statement: if assigning to a shorthand raises, nothing has changed. What is missing: nodes
without a box (see `C32_false_no_box`) and `outline` with an angle as width (see `C32_false_outline`). -/
theorem C32_rejected_partial (E : Env) (at_ : List Nat) (d d' : Decl) (s : SH) (v : Val) (e : Err)
    (h : d.setAttr E at_ (.sh s) v = (d', some e)) (hl : d.link ≠ .noBox)
    (ho : s = .outline → ∀ xs, PartsOf v xs → ∀ x ∈ xs, ¬ ∃ w, FallsTo E s x .width w ∧ IsAngle w) : d' = d := by
  have h : d.setSH E at_ s v = (d', some e) := h
  by_cases hp : ∃ xs, PartsOf v xs
  swap
  · obtain ⟨e', he⟩ := C30_neither E at_ d s v hp
    have he : d.setSH E at_ s v = _ := he
    rw [h] at he; cases he; rfl
  obtain ⟨xs, hp⟩ := hp
  rcases setSH_acts (E := E) (at_ := at_) (d := d) (s := s) hp with ⟨_, _, _, h'⟩ | ⟨kws, _, hF, hN, _, h'⟩
  · rw [h] at h'; cases h'; rfl
  by_cases ha : ∃ w, lookupPart .width kws = some w ∧ IsAngle w
  · obtain ⟨w, hw, ha⟩ := ha
    have hm := (lookup_mem hN).1 hw
    obtain ⟨x, hx, hf⟩ := forall₂_mem hF hm
    by_cases hs : s = .outline
    · exact absurd ⟨w, hf, ha⟩ (ho hs xs hp x hx)
    · -- the width comes first and is refused
      obtain ⟨a, p, as, hact, hpw⟩ : ∃ a p as, shActs (9 :: at_) kws s = .set a p w :: as ∧ p ∈ partProps s .width := by
        cases s with
        | outline => exact absurd rfl hs
        | border =>
          have hk : keyActs (9 :: at_) kws (.width, .dir .borderWidth) = sideActs (9 :: at_) .borderWidth fun _ => w := by
            simp only [keyActs, hw]
          refine ⟨0 :: 9 :: at_, .borderWidth .top, (sideActs (9 :: at_) .borderWidth fun _ => w).tail ++
            [(Part.style, Attr.dir .borderStyle), (.color, .dir .borderColor)].flatMap (keyActs (9 :: at_) kws), ?_,
            by simp [partProps]⟩
          rw [shActs, SH.keys, List.flatMap_cons, hk, sideActs]
          rfl
        | borderSide t =>
          have hk : keyActs (9 :: at_) kws (.width, .lh (.borderWidth t)) = [.set (9 :: at_) (.borderWidth t) w] := by
            simp only [keyActs, hw]
          refine ⟨9 :: at_, .borderWidth t, [(Part.style, Attr.lh (.borderStyle t)),
            (.color, .lh (.borderColor t))].flatMap (keyActs (9 :: at_) kws), ?_, by simp [partProps]⟩
          rw [shActs, SH.keys, List.flatMap_cons, hk]
          rfl
      obtain ⟨_, e1, he1⟩ := (revalidate (E := E) (b := a) hpw (fallsTo_canonical hf)).2 ha
      rw [hact, runActs, Act.run] at h'
      rcases set_cases E a d p w with ⟨_, _, _, hs⟩ | ⟨u, hu, _⟩ | ⟨u, hu, _⟩
      · rw [hs, h] at h'; cases h'; rfl
      · rw [he1] at hu; cases hu
      · rw [he1] at hu; cases hu
  · exfalso
    obtain ⟨d1, h1, h2⟩ := runActs_succeeds (E := E) (as := shActs (9 :: at_) kws s) hl (by
      intro a hact
      obtain ⟨k, p, hpk, rfl | ⟨b, w, rfl, hw⟩⟩ := mem_shActs hact
      · trivial
      · obtain ⟨x, _, hx⟩ := forall₂_mem hF ((lookup_mem hN).1 hw)
        obtain ⟨r1, r2⟩ := revalidate (E := E) (b := b) hpk (fallsTo_canonical hx)
        refine ⟨w, r1 fun ha' => ?_⟩
        obtain ⟨rfl, _⟩ := r2 ha'
        exact ha ⟨w, hw, ha'⟩)
    rw [h1, h] at h'
    have h' : (d', some e) = d1.markDirty := h'
    have := (mark_link h2).2
    rw [← h'] at this
    cases this

/-- Borders: whatever is assigned to `border` or `border_<side>`, if it raises nothing has changed. -/
theorem C32_border (E : Env) (at_ : List Nat) (d d' : Decl) (s : SH) (hs : s ≠ .outline) (v : Val) (e : Err)
    (h : d.setAttr E at_ (.sh s) v = (d', some e)) (hl : d.link ≠ .noBox) : d' = d :=
  C32_rejected_partial E at_ d d' s v e h hl fun ho => absurd ho hs

/-- The hypotheses are met: `border = "solid dashed"` raises, with borders assigned before. -/
example (E : Env) : ∃ d, Reachable E d ∧ d.css (.borderStyle .top) = some (.str (lit "solid")) ∧
    d.setAttr E [1] (.sh .border) (.str (lit "dotted dashed")) = (d, some .value) :=
  ⟨_, ⟨[.setAttr (.sh .border) (.str (lit "solid"))], rfl⟩, rfl, rfl⟩

/-- C32 is false for `outline`: `"red solid 90deg"` raises after colour and style were assigned. -/
theorem C32_false_outline (E : Env) (L : E.fp.Laws) : ∃ d d' e, Reachable E d ∧
    d.setAttr E [0] (.sh .outline) (.str (lit "red solid 90deg")) = (d', some e) ∧
    d.css .outlineStyle = none ∧ d'.css .outlineStyle = some (.str (lit "solid")) := by
  obtain ⟨x, hx⟩ := units_90deg E L
  have hw : outlineWidthChoices.validate E [2, 0] (.str (lit "90deg")) = .ok (.unit ⟨.ang .deg, x⟩) :=
    (validate_iff E [2, 0] .outlineWidth _ _).2 (Or.inr ⟨.length, rfl, by simp only [Kind.parse, hx]; rfl⟩)
  obtain ⟨c, hred⟩ : ∃ c, namedColor (lit "red") = some c := ⟨_, rfl⟩
  have p0 : parsePart E [0, 0] (.str (lit "red")) [] SH.outline.tries = .ok [(.color, c)] := by
    cases hred; rfl
  have p1 : parsePart E [1, 0] (.str (lit "solid")) [(.color, c)] SH.outline.tries =
      .ok [(.color, c), (.style, .str (lit "solid"))] := rfl
  have p2 : parsePart E [2, 0] (.str (lit "90deg")) [(.color, c), (.style, .str (lit "solid"))] SH.outline.tries =
      .ok [(.color, c), (.style, .str (lit "solid")), (.width, .unit ⟨.ang .deg, x⟩)] := by
    have e1 : outlineColorChoices.validate E [2, 0] (.str (lit "90deg")) = .error .value := rfl
    have e2 : outlineStyleChoices.validate E [2, 0] (.str (lit "90deg")) = .error .value := rfl
    simp only [SH.tries, parsePart, e1, e2, hw]
    rfl
  have hp : PartsOf (.str (lit "red solid 90deg")) [.str (lit "red"), .str (lit "solid"), .str (lit "90deg")] :=
    .text _ [lit "red", lit "solid", lit "90deg"] (by decide) ((splitWs_iff ..).1 (by decide +kernel))
  have hparse : parseShorthand E [0] .outline (.str (lit "red solid 90deg")) =
      .ok [(.color, c), (.style, .str (lit "solid")), (.width, .unit ⟨.ang .deg, x⟩)] := by
    rw [parts_parse hp]
    simp only [parseParts, p0, p1, p2]
    rfl
  obtain ⟨_, e, he⟩ := (revalidate (E := E) (b := [9, 0]) (s := .outline) (k := .width) (p := .outlineWidth)
    (w := .unit ⟨.ang .deg, x⟩) (by simp [partProps]) (Or.inr ⟨.length, rfl, _, rfl⟩)).2 ⟨_, _, rfl⟩
  have hfail : ∀ d : Decl, ∃ e', d.set E [9, 0] .outlineWidth (.unit ⟨.ang .deg, x⟩) = (d, some e') := by
    intro d
    rcases set_cases E [9, 0] d .outlineWidth (.unit ⟨.ang .deg, x⟩) with ⟨_, _, e', hs⟩ | ⟨u, hu, _⟩ | ⟨u, hu, _⟩
    · exact ⟨e', hs⟩
    · rw [he] at hu; cases hu
    · rw [he] at hu; cases hu
  have hset : ∀ d : Decl, d.setAttr E [0] (.sh .outline) (.str (lit "red solid 90deg")) =
      (((d.set E [9, 0] .outlineColor c).andThen fun d => (d.set E [9, 0] .outlineStyle (.str (lit "solid"))).andThen
        fun d => (d.set E [9, 0] .outlineWidth (.unit ⟨.ang .deg, x⟩)).andThen fun d => (d, none)).andThen
          Decl.markDirty) := by
    intro d
    simp only [Decl.setAttr, Decl.setSH, hparse]
    rfl
  obtain ⟨e', he'⟩ := hfail ⟨(CSS.empty.store .outlineColor c).store .outlineStyle (.str (lit "solid")), .unbound⟩
  have e1 : (Decl.mk CSS.empty .unbound).set E [9, 0] .outlineColor c = (⟨CSS.empty.store .outlineColor c, .unbound⟩, none) := by
    cases hred; rfl
  have e2 : (Decl.mk (CSS.empty.store .outlineColor c) .unbound).set E [9, 0] .outlineStyle (.str (lit "solid")) =
    (⟨(CSS.empty.store .outlineColor c).store .outlineStyle (.str (lit "solid")), .unbound⟩, none) := rfl
  refine ⟨⟨CSS.empty, .unbound⟩, ⟨(CSS.empty.store .outlineColor c).store .outlineStyle (.str (lit "solid")), .unbound⟩,
    e', ⟨[], rfl⟩, ?_, rfl, rfl⟩
  rw [hset, e1]
  simp only [Out.andThen, e2, he']

/-- C32 is false for a node without a box: the first property is assigned before the error. -/
theorem C32_false_no_box (E : Env) : ∃ d d' e, Reachable E d ∧
    d.setAttr E [1] (.sh .border) (.str (lit "solid")) = (d', some e) ∧
    d.css (.borderStyle .top) = none ∧ d'.css (.borderStyle .top) = some (.str (lit "solid")) :=
  ⟨_, _, _, ⟨[.bind .noBox], rfl⟩, rfl, rfl, rfl⟩

end Colosseum
