import Verif.Model.Shorthand
import Verif.Spec.Shorthand

/-!
# Lemmas about `Shorthand` objects
-/

namespace Colosseum

/-- The properties of a shorthand in the order of its keys. -/
def SH.props (s : SH) : List LH := (partOrder s).flatMap (partProps s)

/-- The stored values of some properties. -/
def storedOf (c : CSS) (ps : List LH) : List (PyStr × Val) := ps.filterMap fun p => (c p).map fun v => (p.name, v)

theorem names_nodup (s : SH) (hs : s ≠ .border) : (s.props.map LH.name).Nodup := by
  rcases s with t | _ | _
  · cases t <;> decide
  · exact absurd rfl hs
  · decide

theorem keys_eq (s : SH) (hs : s ≠ .border) : s.keys.map (·.2) = s.props.map Attr.lh := by
  rcases s with t | _ | _
  · rfl
  · exact absurd rfl hs
  · rfl

theorem validKeys_eq (s : SH) (hs : s ≠ .border) : s.validKeys = s.props.map LH.name := by
  have := congrArg (List.map Attr.name) (keys_eq s hs)
  rw [List.map_map, List.map_map] at this
  exact this

theorem readSH_eq (c : CSS) (s : SH) (hs : s ≠ .border) : (c.readSH s).map (fun x => (x.1.name, x.2)) = storedOf c s.props := by
  have : c.readSH s = (s.keys.map (·.2)).filterMap fun a =>
      match a with
      | .lh p => (c p).map fun v => (a, v)
      | _ => none := by
    rw [List.filterMap_map]; rfl
  rw [this, keys_eq s hs, List.filterMap_map, List.map_filterMap]
  unfold storedOf
  congr 1
  funext p
  simp only [Function.comp_apply, Option.map_map]
  cases c p <;> rfl

theorem storedOf_keys (c : CSS) (ps : List LH) : ∀ x ∈ storedOf c ps, x.1 ∈ ps.map LH.name := by
  intro x hx
  simp only [storedOf, List.mem_filterMap, Option.map_eq_some_iff] at hx
  obtain ⟨p, hp, v, _, rfl⟩ := hx
  exact List.mem_map.2 ⟨p, hp, rfl⟩

theorem shorthand_eq (c : CSS) (s : SH) (hs : s ≠ .border) :
    c.shorthand s = .ok (if storedOf c s.props = [] then none else some ⟨s, storedOf c s.props⟩) := by
  have h := readSH_eq c s hs
  unfold CSS.shorthand
  split
  · rename_i h0
    rw [h0] at h
    rw [if_pos (by rw [← h]; rfl)]
  · rename_i h0
    rw [h, if_neg]
    · unfold Wrapped.make
      rw [if_pos]
      · rfl
      · rw [List.all_eq_true]
        intro x hx
        rw [validKeys_eq s hs]
        simpa using storedOf_keys c _ x hx
    · rw [← h]
      simpa using h0

theorem lookup_stored (c : CSS) : ∀ (ps : List LH), (ps.map LH.name).Nodup → ∀ p ∈ ps, (storedOf c ps).lookup p.name = c p
  | [], _, p, hp => by cases hp
  | q :: ps, hnd, p, hp => by
    rw [List.map_cons, List.nodup_cons] at hnd
    have hstep : storedOf c (q :: ps) = match c q with
        | none => storedOf c ps
        | some v => (q.name, v) :: storedOf c ps := by
      unfold storedOf
      rw [List.filterMap_cons]
      cases c q <;> rfl
    rw [hstep]
    rcases List.mem_cons.1 hp with rfl | hp
    · cases hc : c p with
      | some v => simp
      | none =>
        simp only
        rw [List.lookup_eq_none_iff]
        intro x hx
        have := storedOf_keys c _ x hx
        simp only [bne_iff_ne, ne_eq, beq_iff_eq, beq_eq_false_iff_ne, Bool.not_eq_true]
        rintro h
        exact hnd.1 (h ▸ this)
    · have ih := lookup_stored c ps hnd.2 p hp
      have hne : p.name ≠ q.name := fun h => hnd.1 (h ▸ List.mem_map.2 ⟨p, hp, rfl⟩)
      cases hc : c q with
      | none => exact ih
      | some v =>
        simp only
        rw [List.lookup_cons, beq_false_of_ne hne]
        exact ih

theorem lookup_other (c : CSS) (ps : List LH) (n : PyStr) (h : n ∉ ps.map LH.name) : (storedOf c ps).lookup n = none := by
  rw [List.lookup_eq_none_iff]
  intro x hx
  have := storedOf_keys c _ x hx
  simp only [bne_iff_ne, ne_eq, beq_iff_eq, beq_eq_false_iff_ne, Bool.not_eq_true]
  rintro rfl
  exact h this

theorem toDict_eq (c : CSS) (s : SH) (hs : s ≠ .border) : Wrapped.toDict ⟨s, storedOf c s.props⟩ = storedOf c s.props := by
  unfold Wrapped.toDict
  simp only
  rw [validKeys_eq s hs, List.filterMap_map]
  have : ∀ p ∈ s.props, ((fun k => ((⟨s, storedOf c s.props⟩ : Wrapped).attr k).map fun v => (k, v)) ∘ LH.name) p =
      (c p).map fun v => (p.name, v) := by
    intro p hp
    simp only [Function.comp_apply, Wrapped.attr, lookup_stored c _ (names_nodup s hs) p hp]
  exact List.filterMap_congr this

end Colosseum
