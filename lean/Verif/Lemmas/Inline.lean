import Verif.Lemmas.Vertical
import Verif.Props.Replaced

/-!
# Inline elements
-/

namespace Colosseum

/-- The node is, apart from the origins of the boxes, as a run of `layoutBody` from a reset document left it. -/
def RunFull (fp : FP) (d : Display) (cb : CB) (ps : Option CSS) (n : Node) : Prop :=
  ∃ b, n.layout = some b ∧ ∃ f b0 cs0 b1 cs1,
    layoutBody fp d (fun b m => layoutBox fp d f (some n.style) (.box b) m) ps cb n.style n.intrinsic b0 cs0 = .ok (b1, cs1) ∧
    b1.noOrigin = b.noOrigin ∧ Pristine (.mk n.style n.intrinsic (some b0) cs0)

theorem RunFull.noOrigin {fp : FP} {d : Display} {cb : CB} {ps : Option CSS} {n m : Node} (h : RunFull fp d cb ps n) (e : n.noOrigin = m.noOrigin) :
    RunFull fp d cb ps m := by
  obtain ⟨s, z, l, cs⟩ := n
  obtain ⟨s', z', l', cs'⟩ := m
  simp only [noOrigin_mk] at e
  injection e with e1 e2 e3 e4
  subst e1 e2
  obtain ⟨b, hb, f, b0, cs0, b1, cs1, h1, h2, h3⟩ := h
  cases hb
  cases l' with
  | none => cases e3
  | some b' =>
    simp only [Option.map_some, Option.some.injEq] at e3
    exact ⟨b', rfl, f, b0, cs0, b1, cs1, h1, h2.trans e3, h3⟩

theorem layoutBox_runFull {fp : FP} {d : Display} {f : Nat} {ps : Option CSS} {cb : CB} {n n' : Node} (hn : Pristine n)
    (h : layoutBox fp d f ps cb n = .ok n') (hh : ¬ n'.Hidden) : RunFull fp d cb ps n' := by
  cases f with
  | zero => cases h
  | succ f =>
    obtain ⟨s, z, l, cs⟩ := n
    rcases layoutBox_ok h with ⟨hs, rfl⟩ | ⟨hs, b, cs0, b', cs', hl, hb, rfl⟩
    · exact absurd hs hh
    · rcases hl with ⟨rfl, rfl⟩ | ⟨rfl, _⟩
      · exact ⟨b', rfl, f, b, cs0, b', cs', hb, rfl, hn⟩
      · exact absurd rfl ((allBoxed_mk.1 hn.1 hs).1)

/-- A child that is not laid out below others is where its own run put it. -/
theorem RunAt.kidFull {fp : FP} {d : Display} {hgt : Bool} {cb : CB} {ps : Option CSS} {n c : Node} (h : RunAt fp d hgt cb ps n) (hn : ¬ n.Hidden)
    (hc : c ∈ n.children) (hv : ¬ n.BlockContext) (hh : ¬ c.Hidden) :
    ∃ b bb, n.layout = some b ∧ RunFull fp d (.box bb) (some n.style) c ∧ bb.contentWidth = b.contentWidth := by
  obtain ⟨s, z, l, cs⟩ := n
  obtain ⟨b, rfl, f, b0, cs0, b', cs', hb, hcore, hno', q0⟩ := h
  simp only [Node.style, Node.intrinsic, Node.children] at hb hno' q0 hc ⊢
  obtain ⟨b1, b2, cs2, b3, cs3, b4, cs4, b5, cs5, h1, h2, h3, ha, hf, h4, h5, h6⟩ := body_phases hb
  have hs : s.get .display ≠ .none := hn
  have q3 : ∀ c ∈ cs3, Pristine c := by
    intro c hc
    have e : cs0.map Node.noOrigin = cs3.map Node.noOrigin := by
      rw [(relativeHeight_steps h3).noOrigin, (width_steps h2).noOrigin]
    obtain ⟨c0, hc0, he⟩ := forall₂_left (forall₂_of_map e).flip hc
    exact pristine_passes.kid hs q0 hc0 he
  have hno : cs4.map Node.noOrigin = cs.map Node.noOrigin := by
    rw [← hno', (relative_steps h6).noOrigin, (height_steps h5).noOrigin]
  obtain ⟨c4, hc4, he⟩ := forall₂_left (forall₂_of_map hno).flip hc
  have hh4 : ¬ c4.Hidden := fun e => hh ((noOrigin_hidden he).1 e)
  have hsty : cs.map Node.style = cs3.map Node.style := by
    have e1 : cs.map Node.style = cs4.map Node.style :=
      (forall₂_map_eq ((forall₂_of_map hno).imp fun a b h => by rw [← noOrigin_style a, h, noOrigin_style])).symm
    rw [e1]
    refine (forall₂_map_eq (((children_forall h4).2).imp fun c c' h => ?_)).symm
    have key : ∀ b c c', layoutBox fp d f (some s) (.box b) c = .ok c' → c'.style = c.style := fun b c c' h => by
      rw [← strip_style, layoutBox_strip _ _ _ _ _ _ _ h, strip_style]
    rcases h with rfl | h
    · rfl
    · cases h with
      | same h => exact (key _ _ _ h).symm
      | moved v h => exact (key _ _ _ h).symm
  rcases children_stacked h4 with ⟨_, rfl, hf⟩ | ⟨hi, _⟩
  · obtain ⟨c, hcm, hl⟩ := forall₂_left hf.flip hc4
    refine ⟨b, b4, rfl, (layoutBox_runFull (q3 c hcm) hl hh4).noOrigin he, ?_⟩
    rw [← core_width hcore, relative_width h6, height_width h5]
  · exfalso
    rw [← inline_of_styles hsty] at hi
    exact hv ((blockContext_iff s z (some b) cs).1 hi)

/-- The run of an inline element below the root. -/
theorem layout_inline {fp : FP} {d : Display} {html5 : Bool} {p ps : Option CSS} {n n' m : Node} {w : Option Num} (hbx : AllBoxed n)
    (h : layout fp d html5 p n = .ok n') (hm : Inside true (some d.contentWidth) p n' w ps m) (hi : m.style.get .display = kw "inline") :
    ∃ cb, cb.width = w ∧ RunFull fp d cb ps m := by
  have hh : ¬ m.Hidden := fun e => by
    have e : m.style.get .display = .none := e
    rw [e] at hi
    simp [kw] at hi
  have hnb : ¬ m.BlockLevel := by
    unfold Node.BlockLevel
    rw [hi]
    simp only [kw, Val.str.injEq]
    decide
  obtain ⟨b, c, hn, hl, hc, hb, hw⟩ := hm
  have hall := layout_ranQ pristine_passes (pristine_reset fp hbx) h
  have key : ∃ wk psk k b', Within (some d.contentWidth) p n' wk psk k ∧ ¬ k.Hidden ∧ k.layout = some b' ∧ w = b'.contentWidth ∧ ps = some k.style ∧
      m ∈ k.children ∧ (k.BlockContext → m.BlockLevel) := by
    rcases within_parent hw with ⟨rfl, rfl, rfl⟩ | ⟨wk, psk, k, b', h1, h2⟩
    · exact ⟨_, _, n', b, .here .., hn, hl, rfl, rfl, hc, hb⟩
    · exact ⟨wk, psk, k, b', .step hn hl hc hb h1, h2⟩
  obtain ⟨wk, psk, k, b', h1, h2, h3, h4, h5, h6, h7⟩ := key
  have hk : RanQ Pristine fp d false wk psk k := by
    cases h1 with
    | here =>
      cases html5 with
      | true => exact hall.1 h2
      | false => exact (hall.1 h2).weaken
    | step hn hl hc hb hw => exact (hall.2 _ hc _ hl hn hb _ _ _ hw h2).weaken
  obtain ⟨cb, _, hr⟩ := hk.at
  obtain ⟨b'', bb, e0, e1, e2⟩ := hr.kidFull h2 h6 (fun e => hnb (h7 e)) hh
  rw [h3] at e0
  cases e0
  exact ⟨.box bb, by rw [h4]; exact e2, h5 ▸ e1⟩

end Colosseum
