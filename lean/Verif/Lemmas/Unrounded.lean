import Verif.Spec.Unrounded
import Verif.Lemmas.Merged
import Verif.Lemmas.Blueprint
import Verif.Lemmas.Mild
import Verif.Lemmas.Resize

/-!
# Lemmas: small numbers do not depend on the arithmetic
-/

namespace Colosseum

variable {fp gp : FP} {d : Display} {B : Nat}

/-! ## Numbers -/

theorem near_other (G : gp.Laws) {k : Nat} {x : Num} (h : Near fp k x) : Near gp k x := ⟨G, h.2⟩

theorem un_add (G : gp.Laws) {a b : Num} {m k : Nat} (ha : Near fp m a) (hb : Near fp k b) (h : m + k ≤ 2 ^ 53) : a.add gp b = a.add fp b := by
  have e1 := (ha.add hb h).1
  have e2 := ((near_other G ha).add (near_other G hb) h).1
  rw [← e1] at e2
  cases a <;> cases b <;> first | rfl | exact congrArg Num.flt e2

theorem un_sub (G : gp.Laws) {a b : Num} {m k : Nat} (ha : Near fp m a) (hb : Near fp k b) (h : m + k ≤ 2 ^ 53) : a.sub gp b = a.sub fp b := by
  have e1 := (ha.sub hb h).1
  have e2 := ((near_other G ha).sub (near_other G hb) h).1
  rw [← e1] at e2
  cases a <;> cases b <;> first | rfl | exact congrArg Num.flt e2

theorem un_half (G : gp.Laws) {a : Num} {m : Nat} (ha : Near fp m a) (h : m ≤ 2 ^ 53) : a.floorDiv2 gp = a.floorDiv2 fp := by
  have e1 := ha.fits.floorDiv2 h
  have e2 := (near_other G ha).fits.floorDiv2 h
  rw [← e1] at e2
  cases a <;> first | rfl | exact congrArg Num.flt e2

theorem un_plus (G : gp.Laws) {B : Nat} (xs : List Num) : ∀ {a : Num} {m : Nat}, Near fp m a → (∀ x ∈ xs, Near fp B x) → m + B * xs.length ≤ 2 ^ 53 →
    a.plus gp xs = a.plus fp xs ∧ Near fp (m + B * xs.length) (a.plus fp xs) := by
  induction xs with
  | nil => intro a m ha _ _; exact ⟨rfl, ha⟩
  | cons x xs ih =>
    intro a m ha hx hm
    simp only [List.length_cons, Nat.mul_add, Nat.mul_one] at hm ⊢
    have h0 := hx x (by simp)
    have h1 := (ha.add h0 (by omega)).2
    obtain ⟨i1, i2⟩ := ih h1 (fun y hy => hx y (by simp [hy])) (by omega)
    simp only [Num.plus]
    rw [un_add G ha h0 (by omega)]
    exact ⟨i1, i2.mono (by omega)⟩

theorem un_less (G : gp.Laws) {B : Nat} (xs : List Num) : ∀ {a : Num} {m : Nat}, Near fp m a → (∀ x ∈ xs, Near fp B x) → m + B * xs.length ≤ 2 ^ 53 →
    a.less gp xs = a.less fp xs ∧ Near fp (m + B * xs.length) (a.less fp xs) := by
  induction xs with
  | nil => intro a m ha _ _; exact ⟨rfl, ha⟩
  | cons x xs ih =>
    intro a m ha hx hm
    simp only [List.length_cons, Nat.mul_add, Nat.mul_one] at hm ⊢
    have h0 := hx x (by simp)
    have h1 := (ha.sub h0 (by omega)).2
    obtain ⟨i1, i2⟩ := ih h1 (fun y hy => hx y (by simp [hy])) (by omega)
    simp only [Num.less]
    rw [un_sub G ha h0 (by omega)]
    exact ⟨i1, i2.mono (by omega)⟩

theorem near_replacing {k : Nat} {a b : Num} (h : Near fp k b) : Near fp k (a.replacing b) := by
  unfold Num.replacing
  split
  · rename_i e; exact h.of_val e.symm
  · exact h

/-- A size that is small if it is known. -/
def NearSize (fp : FP) (B : Nat) (o : Option Num) : Prop := ∀ x, o = some x → Near fp B x

/-- A margin that is small if it is not automatic. -/
def NearM (fp : FP) (B : Nat) (v : MVal) : Prop := ∀ x, v = .num x → Near fp B x

theorem NearM.grounded {v : MVal} (L : fp.Laws) (h : NearM fp B v) : Near fp B v.grounded := by
  cases v with
  | auto => exact near_0 L B
  | num x => exact h x rfl

/-- Four small numbers. -/
structure NearE (fp : FP) (B : Nat) (e : Edge Num) : Prop where
  top : Near fp B e.top
  right : Near fp B e.right
  bottom : Near fp B e.bottom
  left : Near fp B e.left

/-- Four small margins. -/
structure NearEM (fp : FP) (B : Nat) (e : Edge MVal) : Prop where
  top : NearM fp B e.top
  right : NearM fp B e.right
  bottom : NearM fp B e.bottom
  left : NearM fp B e.left

/-! ## Styles -/

/-- The lengths of a style are small, and they come to the same number of pixels in both arithmetics. -/
structure CSS.Tame (fp gp : FP) (d : Display) (B : Nat) (s : CSS) : Prop where
  agree : ∀ q, q.Measure → ∀ size, NearSize fp B size → ∀ u, s.get q = .unit u → u.px gp ⟨d, dummyFont gp, size⟩ = u.px fp ⟨d, dummyFont fp, size⟩
  near : ∀ q, q.Measure → ∀ size, NearSize fp B size → ∀ u, s.get q = .unit u → ∀ x, u.px fp ⟨d, dummyFont fp, size⟩ = .ok x → Near fp B x
  offset : ∀ q, q.Offset → s.get q ≠ kw "inherit"

theorem offset_measure {q : LH} (h : q.Offset) : q.Measure := by cases q <;> first | trivial | cases h

/-- The height of the parent is small if one is given. -/
def CSS.TameHeight (fp gp : FP) (d : Display) (B : Nat) (s : CSS) : Prop :=
  ∀ H, NearSize fp B H → (s.get .height).inPixels gp d H = (s.get .height).inPixels fp d H ∧ NearSize fp B ((s.get .height).inPixels fp d H)

/-- The content of an element is small and has no ratio. -/
structure Intrinsic.Tame (fp : FP) (B : Nat) (z : Intrinsic) : Prop where
  width : NearSize fp B z.width
  height : NearSize fp B z.height
  ratio : z.ratio = none

/-- The widths of borders are small. -/
structure Display.Tame (fp : FP) (B : Nat) (d : Display) : Prop where
  thin : Near fp B d.thin
  medium : Near fp B d.medium
  thick : Near fp B d.thick

section
variable {s : CSS} (hs : s.Tame fp gp d B) {q : LH} (hq : q.Measure) {size : Option Num} (hz : NearSize fp B size)
include hs hq hz

theorem un_pixels : (s.get q).inPixels gp d size = (s.get q).inPixels fp d size ∧ NearSize fp B ((s.get q).inPixels fp d size) := by
  have h1 := hs.agree q hq size hz
  have h2 := hs.near q hq size hz
  generalize s.get q = v at h1 h2
  cases v with
  | unit u =>
    simp only [Val.inPixels, h1 u rfl]
    refine ⟨trivial, fun x hx => h2 u rfl x ?_⟩
    cases hp : u.px fp ⟨d, dummyFont fp, size⟩ with
    | error e => rw [hp] at hx; cases hx
    | ok y => rw [hp] at hx; cases hx; rfl
  | _ => exact ⟨rfl, fun x hx => by cases hx⟩

theorem un_extent (L : fp.Laws) (hd : d.Tame fp B) : (s.get q).extent gp d size = (s.get q).extent fp d size ∧
    ∀ v, (s.get q).extent fp d size = some v → NearM fp B v := by
  have h1 := hs.agree q hq size hz
  have h2 := hs.near q hq size hz
  generalize s.get q = v at h1 h2
  cases v with
  | none => refine ⟨rfl, fun v hv => ?_⟩; cases hv; rintro _ ⟨⟩; exact near_0 L B
  | unit u =>
    simp only [Val.extent, h1 u rfl]
    refine ⟨trivial, fun v hv => ?_⟩
    split at hv
    · cases hv; rintro _ ⟨⟩; exact near_0 L B
    · cases hp : u.px fp ⟨d, dummyFont fp, size⟩ with
      | error e => rw [hp] at hv; cases hv
      | ok y => rw [hp] at hv; cases hv; rintro _ ⟨⟩; exact h2 u rfl y hp
  | num x =>
    refine ⟨rfl, fun v hv => ?_⟩
    simp only [Val.extent] at hv
    split at hv
    · cases hv; rintro _ ⟨⟩; exact near_0 L B
    · cases hv
  | str t =>
    refine ⟨rfl, fun v hv => ?_⟩
    simp only [Val.extent] at hv
    split at hv
    · cases hv; nofun
    split at hv
    · cases hv; rintro _ ⟨⟩; exact hd.thin
    split at hv
    · cases hv; rintro _ ⟨⟩; exact hd.medium
    split at hv
    · cases hv; rintro _ ⟨⟩; exact hd.thick
    · cases hv
  | _ => exact ⟨rfl, fun v hv => by cases hv⟩

theorem un_thickness (L : fp.Laws) (hd : d.Tame fp B) : (s.get q).thickness gp d size = (s.get q).thickness fp d size ∧
    ∀ v, (s.get q).thickness fp d size = some v → Near fp B v := by
  obtain ⟨h1, h2⟩ := un_extent hs hq hz L hd
  unfold Val.thickness
  rw [h1]
  refine ⟨rfl, fun v hv => ?_⟩
  cases he : (s.get q).extent fp d size with
  | none => rw [he] at hv; cases hv
  | some e =>
    rw [he] at hv
    cases e with
    | auto => cases hv
    | num x => cases hv; exact h2 _ he v rfl

theorem un_spacing (L : fp.Laws) (hd : d.Tame fp B) : (s.get q).spacing gp d size = (s.get q).spacing fp d size ∧
    ∀ v, (s.get q).spacing fp d size = some v → NearM fp B v := by
  obtain ⟨h1, h2⟩ := un_extent hs hq hz L hd
  unfold Val.spacing
  rw [h1]
  refine ⟨rfl, fun v hv => ?_⟩
  cases he : (s.get q).extent fp d size with
  | none => rw [he] at hv; cases hv
  | some e =>
    rw [he] at hv
    cases e with
    | auto => cases hv; nofun
    | num x => cases hv; rintro _ ⟨⟩; exact near_replacing (h2 _ he x rfl)

end

theorem un_edges (L : fp.Laws) (hd : d.Tame fp B) {s : CSS} (hs : s.Tame fp gp d B) {W H : Option Num} (hW : NearSize fp B W) (hH : NearSize fp B H) :
    s.edges gp d W H = s.edges fp d W H ∧ ∀ x, s.edges fp d W H = some x → NearEM fp B x.1 ∧ NearE fp B x.2.1 ∧ NearE fp B x.2.2 := by
  obtain ⟨a1, b1⟩ := un_spacing hs (q := .margin .top) trivial hH L hd
  obtain ⟨a2, b2⟩ := un_spacing hs (q := .margin .right) trivial hW L hd
  obtain ⟨a3, b3⟩ := un_spacing hs (q := .margin .bottom) trivial hH L hd
  obtain ⟨a4, b4⟩ := un_spacing hs (q := .margin .left) trivial hW L hd
  obtain ⟨a5, b5⟩ := un_thickness hs (q := .borderWidth .top) trivial hW L hd
  obtain ⟨a6, b6⟩ := un_thickness hs (q := .borderWidth .right) trivial hH L hd
  obtain ⟨a7, b7⟩ := un_thickness hs (q := .borderWidth .bottom) trivial hW L hd
  obtain ⟨a8, b8⟩ := un_thickness hs (q := .borderWidth .left) trivial hH L hd
  obtain ⟨a9, b9⟩ := un_thickness hs (q := .padding .top) trivial hW L hd
  obtain ⟨a10, b10⟩ := un_thickness hs (q := .padding .right) trivial hH L hd
  obtain ⟨a11, b11⟩ := un_thickness hs (q := .padding .bottom) trivial hW L hd
  obtain ⟨a12, b12⟩ := un_thickness hs (q := .padding .left) trivial hH L hd
  rw [edges_sides, edges_sides]
  unfold CSS.edges'
  rw [a1, a2, a3, a4, a5, a6, a7, a8, a9, a10, a11, a12]
  refine ⟨rfl, fun x hx => ?_⟩
  simp only [Option.bind_eq_some_iff, Option.some.injEq] at hx
  obtain ⟨mt, e1, mr, e2, mb, e3, ml, e4, bt, e5, pt, e9, br, e6, pr, e10, bb, e7, pb, e11, bl, e8, pl, e12, rfl⟩ := hx
  exact ⟨⟨b1 _ e1, b2 _ e2, b3 _ e3, b4 _ e4⟩, ⟨b5 _ e5, b6 _ e6, b7 _ e7, b8 _ e8⟩, ⟨b9 _ e9, b10 _ e10, b11 _ e11, b12 _ e12⟩⟩

theorem un_given {s : CSS} (hs : s.Tame fp gp d B) {W : Option Num} (hW : NearSize fp B W) :
    s.givenWidth gp d W = s.givenWidth fp d W ∧ NearSize fp B (s.givenWidth fp d W) := by
  obtain ⟨a1, b1⟩ := un_pixels hs (q := .width) trivial hW
  obtain ⟨a2, b2⟩ := un_pixels hs (q := .maxWidth) trivial hW
  obtain ⟨a3, b3⟩ := un_pixels hs (q := .minWidth) trivial hW
  unfold CSS.givenWidth
  rw [a1, a2, a3]
  refine ⟨rfl, fun x hx => ?_⟩
  simp only [Option.bind_eq_bind, Option.bind_eq_some_iff, Option.some.injEq] at hx
  obtain ⟨w, e1, m, e2, l, e3, rfl⟩ := hx
  have hw := b1 _ e1
  have hm : Near fp B m := by
    split at e2
    · cases e2; exact hw
    · exact b2 _ e2
  have hm' : Near fp B (if m.val < w.val then m else w) := by split <;> assumption
  have hl : Near fp B l := by
    split at e3
    · cases e3; exact hm'
    · exact b3 _ e3
  by_cases hc : (if m.val < w.val then m else w).val < l.val
  · rw [if_pos hc]; exact hl
  · rw [if_neg hc]; exact hm'

section
variable (L : fp.Laws) (G : gp.Laws) (hB : B ≤ 2 ^ 47)
include L G hB

theorem un_leftover {W w : Num} {b p : Edge Num} {l r : List Num} (hW : Near fp B W) (hw : Near fp B w) (hb : NearE fp B b) (hp : NearE fp B p)
    (hl : ∀ x ∈ l, Near fp B x) (hr : ∀ x ∈ r, Near fp B x) (hn : l.length + r.length ≤ 2) :
    leftover gp W w b p l r = leftover fp W w b p l r ∧ Near fp (8 * B) (leftover fp W w b p l r) := by
  unfold leftover
  have hlen : (l ++ [b.left, p.left, w, p.right, b.right] ++ r).length = l.length + r.length + 5 := by simp; omega
  have hle : B * (l ++ [b.left, p.left, w, p.right, b.right] ++ r).length ≤ 7 * B := by
    rw [hlen, Nat.mul_comm]; exact Nat.mul_le_mul_right B (by omega)
  obtain ⟨h1, h2⟩ := un_less G (B := B) (l ++ [b.left, p.left, w, p.right, b.right] ++ r) hW (by
    intro x hx
    simp only [List.mem_append, List.mem_cons, List.not_mem_nil, or_false] at hx
    rcases hx with (hx | hx | hx | hx | hx | hx) | hx
    · exact hl x hx
    · rw [hx]; exact hb.left
    · rw [hx]; exact hp.left
    · rw [hx]; exact hw
    · rw [hx]; exact hp.right
    · rw [hx]; exact hb.right
    · exact hr x hx) (by omega)
  exact ⟨h1, h2.mono (by omega)⟩

theorem un_margins (ltr : Bool) {W w : Num} {b p : Edge Num} {l r : MVal} (hW : Near fp B W) (hw : Near fp B w) (hb : NearE fp B b) (hp : NearE fp B p)
    (hl : NearM fp B l) (hr : NearM fp B r) : sideMargins gp ltr W w b p l r = sideMargins fp ltr W w b p l r := by
  have z : ∀ x ∈ [Num.int 0], Near fp B x := by simpa using near_0 L B
  have none' : ∀ x ∈ ([] : List Num), Near fp B x := by simp
  have one : ∀ y, Near fp B y → ∀ x ∈ [y], Near fp B x := by simp
  have hi : ∀ x ∈ [p.left, w, p.right, b.right], Near fp B x := by simp [hp.left, hp.right, hb.right, hw]
  have e := un_plus G [p.left, w, p.right, b.right] hb.left hi (by simp; omega)
  have e5 : ∀ y, Near fp B y → (b.left.plus fp [p.left, w, p.right, b.right]).plus gp [y] = (b.left.plus fp [p.left, w, p.right, b.right]).plus fp [y] := fun y hy =>
    (un_plus G [y] e.2 (one y hy) (by simp; omega)).1
  have lo : ∀ {l r : List Num}, (∀ x ∈ l, Near fp B x) → (∀ x ∈ r, Near fp B x) → l.length + r.length ≤ 2 → leftover gp W w b p l r = leftover fp W w b p l r :=
    fun h1 h2 h3 => (un_leftover L G hB hW hw hb hp h1 h2 h3).1
  cases l with
  | auto =>
    cases r with
    | auto =>
      have hh := un_leftover L G hB hW hw hb hp none' none' (by simp)
      simp only [sideMargins, e.1, lo z none' (by simp), lo none' z (by simp), hh.1, un_half G hh.2 (by omega)]
    | num r =>
      have hr := hr r rfl
      simp only [sideMargins, e.1, e5 r hr, lo z none' (by simp), lo none' (one r hr) (by simp)]
  | num l =>
    have hl := hl l rfl
    cases r with
    | auto =>
      simp only [sideMargins, e.1, e5 l hl, lo (one l hl) none' (by simp), lo none' z (by simp)]
    | num r =>
      have hr := hr r rfl
      simp only [sideMargins, lo (one l hl) none' (by simp), lo none' (one r hr) (by simp)]

theorem un_image {s : CSS} (hs : s.Tame fp gp d B) {z : Intrinsic} (hz : z.Tame fp B) {W : Option Num} (hW : NearSize fp B W) (b p : Edge Num) (l r : Num) :
    s.imageWidth gp d z W b p l r = s.imageWidth fp d z W b p l r := by
  unfold CSS.imageWidth
  rw [(un_pixels hs (q := .width) trivial hW).1, hz.ratio]
  cases z.width <;> cases z.height <;> rfl

theorem un_across {s : CSS} (hs : s.Tame fp gp d B) {z : Intrinsic} (hz : z.Tame fp B) (l : Option Box) (cs : List Node) {W : Option Num} (hW : NearSize fp B W)
    {m : Edge MVal} {b p : Edge Num} (hm : NearEM fp B m) (hb : NearE fp B b) (hp : NearE fp B p) (k : Manner) :
    (Node.mk s z l cs).across gp d W m b p k = (Node.mk s z l cs).across fp d W m b p k := by
  cases k with
  | inline => rfl
  | image => simp only [Node.across, Node.style, Node.intrinsic, un_image L G hB hs hz hW]
  | block =>
    simp only [Node.across, Node.style, (un_given hs hW).1]
    cases W with
    | none => rfl
    | some W =>
      have hW' := hW W rfl
      simp only [Option.map_some]
      by_cases hx : (s.get .width).isKw "auto" = true
      · simp only [hx, if_true]
        rw [(un_less G (B := B) [m.left.grounded, b.left, p.left, p.right, b.right, m.right.grounded] hW'
          (by simp [hm.left.grounded L, hm.right.grounded L, hb.left, hb.right, hp.left, hp.right]) (by simp; omega)).1]
      · simp only [hx, if_false, Bool.false_eq_true]
        cases hg : s.givenWidth fp d (some W) with
        | none => rfl
        | some w =>
          simp only [Option.bind_some]
          rw [un_margins L G hB _ hW' ((un_given hs hW).2 w hg) hb hp hm.left hm.right]

theorem un_lowering {t : Num} {b p : Edge Num} (ht : Near fp B t) (hb : NearE fp B b) (hp : NearE fp B p) (k : Manner) :
    lowering gp t b p k = lowering fp t b p k ∧ Near fp (3 * B) (lowering fp t b p k) := by
  have h1 := un_plus G (B := B) [p.top] hb.top (by simp [hp.top]) (by simp; omega)
  have h2 := un_plus G (B := B) [b.top, p.top] ht (by simp [hp.top, hb.top]) (by simp; omega)
  have h1' := h1.2.mono (k := 3 * B) (by simp; omega)
  have h2' := h2.2.mono (k := 3 * B) (by simp; omega)
  cases k with
  | inline => exact ⟨h2.1, h2'⟩
  | image => exact ⟨h2.1, h2'⟩
  | block => exact ⟨h1.1, h1'⟩

theorem un_move {s : CSS} (hs : s.Tame fp gp d B) {u v : LH} (hu : u.Offset) (hv : v.Offset) {size : Option Num} (hz : NearSize fp B size) (start stop start' stop' : Option Num) :
    relativeMove gp d size start stop (s.get u) (s.get v) = relativeMove fp d size start' stop' (s.get u) (s.get v) ∧
      NearSize fp B (relativeMove fp d size start' stop' (s.get u) (s.get v)) := by
  have iu : (s.get u).isKw "inherit" = false := by
    rw [Bool.eq_false_iff]
    intro h
    exact hs.offset u hu (by simpa [isKw_iff] using h)
  have iv : (s.get v).isKw "inherit" = false := by
    rw [Bool.eq_false_iff]
    intro h
    exact hs.offset v hv (by simpa [isKw_iff] using h)
  obtain ⟨a1, b1⟩ := un_pixels hs (q := u) (offset_measure hu) hz
  obtain ⟨a2, b2⟩ := un_pixels hs (q := v) (offset_measure hv) hz
  unfold relativeMove
  simp only [iu, iv, a1, a2, Bool.and_false, Bool.false_eq_true, if_false]
  refine ⟨trivial, fun x hx => ?_⟩
  split at hx
  · split at hx
    · cases hx; exact near_0 L B
    · cases hy : (s.get v).inPixels fp d size with
      | none => rw [hy] at hx; cases hx
      | some y => rw [hy] at hx; cases hx; exact (b2 y hy).neg
  · exact b1 x hx

theorem un_moves {s : CSS} (hs : s.Tame fp gp d B) {r : Surround} (hw : NearSize fp B r.width) (hh : NearSize fp B r.height) :
    s.moves gp d r = s.moves fp d r ∧ ∀ x, s.moves fp d r = some x → Near fp B x.1 ∧ Near fp B x.2 := by
  have h1 := un_move L G hB hs (u := .left) (v := .right) trivial trivial hw (r.corner.map (·.1)) (r.corner.bind fun c => r.width.map fun w => c.1.add gp w)
    (r.corner.map (·.1)) (r.corner.bind fun c => r.width.map fun w => c.1.add fp w)
  have h2 := un_move L G hB hs (u := .top) (v := .bottom) trivial trivial hh (r.corner.map (·.2)) (r.corner.bind fun c => r.height.map fun h => c.2.add gp h)
    (r.corner.map (·.2)) (r.corner.bind fun c => r.height.map fun h => c.2.add fp h)
  unfold CSS.moves
  rw [h1.1, h2.1]
  refine ⟨rfl, fun x hx => ?_⟩
  simp only [Option.bind_eq_bind, Option.bind_eq_some_iff, Option.some.injEq] at hx
  obtain ⟨dx, e1, dy, e2, rfl⟩ := hx
  exact ⟨h1.2 dx e1, h2.2 dy e2⟩

/-! ## Heights -/

/-- The numbers of a box, apart from its position, are small. -/
structure Figures.Tame (fp : FP) (B : Nat) (f : Figures) : Prop where
  width : NearSize fp B f.width
  height : NearSize fp B f.height
  margin : NearEM fp B f.margin
  border : NearE fp B f.border
  padding : NearE fp B f.padding
  below : Near fp B (.int f.below)

theorem un_tall {f : Figures} (hf : f.Tame fp B) : f.tall gp = f.tall fp ∧ NearSize fp (5 * B) (f.tall fp) := by
  unfold Figures.tall
  cases hh : f.height with
  | none => exact ⟨rfl, nofun⟩
  | some h =>
    have := un_plus G (B := B) [f.padding.top, h, f.padding.bottom, f.border.bottom] hf.border.top
      (by simp [hf.padding.top, hf.padding.bottom, hf.border.bottom, hf.height h hh]) (by simp; omega)
    simp only [Option.map_some, this.1]
    refine ⟨trivial, ?_⟩
    rintro x ⟨⟩
    exact this.2.mono (by simp; omega)

theorem un_end {f : Figures} (hf : f.Tame fp B) (hy : Near fp B f.y) : f.end gp = f.end fp := by
  unfold Figures.end
  cases hh : f.height with
  | none => rfl
  | some h =>
    have := un_plus G (B := B) [h, f.padding.bottom, f.border.bottom] hy
      (by simp [hf.padding.bottom, hf.border.bottom, hf.height h hh]) (by simp; omega)
    simp only [Option.map_some, this.1]

theorem un_givenHeight {s : CSS} (hs : s.Tame fp gp d B) {p : Option CSS} (hp : ∀ q, p = some q → q.TameHeight fp gp d B) {H : Option Num} (hH : NearSize fp B H) :
    s.givenHeight gp d p H = s.givenHeight fp d p H := by
  obtain ⟨a2, b2⟩ := un_pixels hs (q := .maxHeight) trivial hH
  unfold CSS.givenHeight
  rw [a2]
  cases p with
  | none =>
    simp only [Option.bind_eq_bind, Option.bind_some, (un_pixels hs (q := .height) trivial hH).1]
  | some q =>
    obtain ⟨a1, b1⟩ := hp q rfl H hH
    simp only [a1, Option.bind_eq_bind]
    by_cases hx : (q.get .height).isKw "auto" = true
    · simp only [hx, if_true, Option.bind_some, (un_pixels hs (q := .height) trivial hH).1]
    · simp only [hx, if_false, Bool.false_eq_true]
      cases ho : (q.get .height).inPixels fp d H with
      | none => rfl
      | some o =>
        have ho' : NearSize fp B (some o) := by rintro _ ⟨⟩; exact b1 o ho
        simp only [Option.map_some, Option.bind_some, (un_pixels hs (q := .height) trivial ho').1]

theorem un_imageHeight {s : CSS} (hs : s.Tame fp gp d B) {z : Intrinsic} (hz : z.Tame fp B) {H w : Option Num} (hH : NearSize fp B H) (hw : NearSize fp B w) :
    s.imageHeight gp d z H w = s.imageHeight fp d z H w := by
  have hh : CSS.imageHeight.half gp w = CSS.imageHeight.half fp w := by
    unfold CSS.imageHeight.half
    cases w with
    | none => rfl
    | some w => simp only [Option.map_some, un_half G (hw w rfl) (by omega)]
  unfold CSS.imageHeight CSS.imageHeight.other
  rw [(un_pixels hs (q := .height) trivial hH).1, hz.ratio, hh]

/-- The last box is small. -/
def LastTame (fp : FP) (B : Nat) (ks : List Blueprint) : Prop := ∀ f js, ks.getLast? = some (.mk f js) → f.Tame fp B ∧ Near fp B f.y

theorem un_along {s : CSS} (hs : s.Tame fp gp d B) {p : Option CSS} (hp : ∀ q, p = some q → q.TameHeight fp gp d B) {z : Intrinsic} (hz : z.Tame fp B) (l : Option Box)
    (cs : List Node) {H w : Option Num} (hH : NearSize fp B H) {ks : List Blueprint} (hk : LastTame fp B ks) {k : Manner} (hw : NearSize fp B w) :
    (Node.mk s z l cs).along gp d p H w ks k = (Node.mk s z l cs).along fp d p H w ks k := by
  cases k with
  | inline => rfl
  | image => simp only [Node.along, Node.style, Node.intrinsic, un_imageHeight L G hB hs hz hH hw]
  | block =>
    simp only [Node.along, Node.style, un_givenHeight L G hB hs hp hH, (un_pixels hs (q := .minHeight) trivial hH).1]
    by_cases hx : (!(s.get .height).isKw "auto") = true
    · simp only [hx, if_true]
    · simp only [hx, if_false, Bool.false_eq_true]
      cases hl : ks.getLast? with
      | none => rfl
      | some k =>
        cases k with
        | absent => rfl
        | mk f js =>
          obtain ⟨h1, h2⟩ := hk f js hl
          simp only [un_end L G hB h1 h2]

end

theorem blank_last (L : fp.Laws) (cs : List Node) : LastTame fp B (blankAll cs) := by
  intro f js h
  rw [Blue.blankAll_map, List.getLast?_map] at h
  cases hl : cs.getLast? with
  | none => rw [hl] at h; cases h
  | some c =>
    rw [hl] at h
    obtain ⟨s, z, l, cs'⟩ := c
    cases l with
    | none => cases h
    | some b =>
      cases h
      have z := near_0 L B
      have zm : NearM fp B (.num (.int 0)) := by rintro _ ⟨⟩; exact z
      refine ⟨⟨?_, ?_, ⟨zm, zm, zm, zm⟩, ⟨z, z, z, z⟩, ⟨z, z, z, z⟩, z⟩, z⟩
      · rintro _ ⟨⟩; exact z
      · rintro _ ⟨⟩; exact z

/-- The height that is calculated before the content is known is small if the height itself is. -/
theorem guess_near (L : fp.Laws) (hB : B ≤ 2 ^ 47) {s : CSS} (hs : s.Tame fp fp d B) {p : Option CSS} {z : Intrinsic} {l : Option Box}
    {cs : List Node} {H w : Option Num} (hH : NearSize fp B H) {ks : List Blueprint} {k : Manner} {g h : Option Num}
    (hg : (Node.mk s z l cs).along fp d p H w (blankAll cs) k = some g) (hh : (Node.mk s z l cs).along fp d p H w ks k = some h) (hn : NearSize fp B h) :
    NearSize fp B g := by
  cases k with
  | inline => rw [show g = h from Option.some.inj (hg.symm.trans hh)]; exact hn
  | image => rw [show g = h from Option.some.inj (hg.symm.trans hh)]; exact hn
  | block =>
    simp only [Node.along, Node.style] at hg hh
    by_cases hx : (!(s.get .height).isKw "auto") = true
    · simp only [hx, if_true] at hg hh
      rw [show g = h from Option.some.inj (hg.symm.trans hh)]; exact hn
    · simp only [hx, if_false, Bool.false_eq_true] at hg
      have hb := blank_last (B := 0) L cs
      cases hl : (blankAll cs).getLast? with
      | none =>
        rw [hl] at hg
        dsimp only at hg
        by_cases hmin : (s.get .minHeight).isKw "auto" = true
        · simp only [hmin, if_true] at hg; cases hg; rintro _ ⟨⟩; exact near_0 L B
        · simp only [hmin, if_false, Bool.false_eq_true] at hg
          cases hy : (s.get .minHeight).inPixels fp d H with
          | none => rw [hy] at hg; cases hg
          | some y =>
            rw [hy] at hg; cases hg; rintro _ ⟨⟩
            exact (un_pixels hs (q := .minHeight) trivial hH).2 _ hy
      | some k =>
        rw [hl] at hg
        cases k with
        | absent => cases hg
        | mk f js =>
          obtain ⟨h1, h2⟩ := hb f js hl
          dsimp only at hg
          unfold Figures.end at hg
          cases hf : f.height with
          | none => rw [hf] at hg; cases hg
          | some y =>
            rw [hf] at hg; cases hg; rintro _ ⟨⟩
            exact ((un_plus L (B := 0) [y, f.padding.bottom, f.border.bottom] h2
              (by simp [h1.padding.bottom, h1.border.bottom, h1.height y hf]) (by simp)).2).mono (by simp)

/-! ## Documents -/

/-- All boxes are small; nothing is said about where the first one is. -/
inductive Blueprint.Tame (fp : FP) (B : Nat) : Blueprint → Prop
  | absent : Tame fp B .absent
  | mk {f : Figures} {ks : List Blueprint} : f.Tame fp B → (∀ k ∈ ks, k.Tame fp B) → (∀ g js, .mk g js ∈ ks → Near fp B g.y) → Tame fp B (.mk f ks)

/-- All displayed elements are small and do not depend on the arithmetic. -/
def Node.Tame (fp gp : FP) (d : Display) (B : Nat) (n : Node) : Prop := ∀ m, Visible m n → m.style.Tame fp gp d B ∧ m.intrinsic.Tame fp B

theorem last_tame {ks : List Blueprint} (h1 : ∀ k ∈ ks, k.Tame fp B) (h2 : ∀ g js, .mk g js ∈ ks → Near fp B g.y) : LastTame fp B ks := by
  intro f js h
  have hm := List.mem_of_getLast? h
  cases h1 _ hm with
  | mk hf _ _ => exact ⟨hf, h2 f js hm⟩

/-- What is to be shown of an element. -/
def Unrounded (fp gp : FP) (d : Display) (B : Nat) (n : Node) : Prop :=
  ∀ p r k, n.Tame fp gp d B → (∀ q, p = some q → q.TameHeight fp gp d B) → NearSize fp B r.width → NearSize fp B r.height →
    n.plan fp d p r = some k → k.Tame fp B → n.plan gp d p r = some k ∧ ∀ f js, k = .mk f js → Near fp (8 * B) f.y

theorem un_flow {s : CSS} (hs : s.Tame fp gp d B) {r : Surround} (hw : NearSize fp B r.width) (hh : NearSize fp B r.height) : ∀ {cs : List Node} {ks : List Blueprint},
    (∀ c ∈ cs, Unrounded fp gp d B c) → (∀ c ∈ cs, c.Tame fp gp d B) → flowPlans fp d s r cs = some ks → (∀ k ∈ ks, k.Tame fp B) → flowPlans gp d s r cs = some ks
  | [], ks, _, _, h, _ => h
  | c :: cs, ks, hc, hp, h, hk => by
    simp only [flowPlans, Option.bind_eq_bind, Option.bind_eq_some_iff, Option.some.injEq] at h ⊢
    obtain ⟨k, e1, ks', e2, rfl⟩ := h
    refine ⟨k, (hc c (by simp) _ _ _ (hp c (by simp)) (by rintro _ ⟨⟩; exact fun H hH => un_pixels hs (q := .height) trivial hH) hw hh e1 (hk k (by simp))).1, ks', ?_, rfl⟩
    exact un_flow hs hw hh (fun c h => hc c (by simp [h])) (fun c h => hp c (by simp [h])) e2 fun k h => hk k (by simp [h])

theorem moved_tame {f : Figures} {y : Num} (h : (f.moved fp y).Tame fp B) : f.Tame fp B := ⟨h.width, h.height, h.margin, h.border, h.padding, h.below⟩

theorem un_stack (L : fp.Laws) (G : gp.Laws) (hB : B ≤ 2 ^ 47) {s : CSS} (hs : s.Tame fp gp d B) {r : Surround} (hw : NearSize fp B r.width) (hh : NearSize fp B r.height) :
    ∀ {cs : List Node} {ks : List Blueprint} {y : Num} {bm : Option Int}, Near fp (20 * B) y → (∀ i, bm = some i → Near fp B (.int i)) →
    (∀ c ∈ cs, Unrounded fp gp d B c) → (∀ c ∈ cs, c.Tame fp gp d B) → stackPlans fp d s r y bm cs = some ks → (∀ k ∈ ks, k.Tame fp B) →
    (∀ g js, .mk g js ∈ ks → Near fp B g.y) → stackPlans gp d s r y bm cs = some ks
  | [], ks, _, _, _, _, _, _, h, _, _ => h
  | c :: cs, ks, y, bm, hy, hbm, hc, hp, h, hk, hky => by
    unfold stackPlans at h ⊢
    split at h
    · rename_i hbl
      rw [if_pos hbl]
      simp only [Option.bind_eq_bind, Option.bind_eq_some_iff] at h ⊢
      obtain ⟨k, e1, h⟩ := h
      cases k with
      | absent => cases h
      | mk f js =>
        simp only [Option.bind_eq_some_iff, Option.some.injEq] at h
        obtain ⟨gap, e2, t, e3, rest, e4, rfl⟩ := h
        have hm : (Blueprint.mk (f.moved fp (gap.elim y (y.add fp))) js).Tame fp B := hk _ (by simp)
        have hmy : Near fp B (f.moved fp (gap.elim y (y.add fp))).y := hky _ js (by simp)
        cases hm with
        | mk hf hj hjy =>
        have hf' := moved_tame hf
        obtain ⟨e1', hfy⟩ := hc c (by simp) _ _ _ (hp c (by simp)) (by rintro _ ⟨⟩; exact fun H hH => un_pixels hs (q := .height) trivial hH) hw hh e1 (.mk hf' hj hjy)
        have hfy := hfy f js rfl
        have hgap : NearSize fp B gap := by
          rintro g rfl
          unfold gapAbove at e2
          cases bm with
          | none => cases e2
          | some i =>
            dsimp only at e2
            split at e2
            · rename_i t ht
              simp only [Option.some.injEq] at e2
              subst e2
              have := hbm i rfl
              have := hf'.margin.top t ht
              split <;> assumption
            · cases e2
        have hy1 : gap.elim y (y.add gp) = gap.elim y (y.add fp) ∧ Near fp (21 * B) (gap.elim y (y.add fp)) := by
          cases gap with
          | none => exact ⟨rfl, hy.mono (by omega)⟩
          | some g => exact ⟨un_add G hy (hgap g rfl) (by omega), (hy.add (hgap g rfl) (by omega)).2.mono (by omega)⟩
        obtain ⟨a1, hy1⟩ := hy1
        obtain ⟨a2, ht⟩ := un_tall L G hB hf'
        have ht := ht t e3
        -- the block is where it is: so the offset was small
        have hadd := hfy.add hy1 (by omega)
        have hy2 : Near fp (9 * B) (gap.elim y (y.add fp)) := by
          have hv : (f.moved fp (gap.elim y (y.add fp))).y.val = f.y.val + (gap.elim y (y.add fp)).val := by
            simp only [Figures.moved, Num.replacing]
            split
            · rename_i e; rw [← hadd.1, e]
            · exact hadd.1
          obtain ⟨_, i, hi, hi'⟩ := hmy
          obtain ⟨_, j, hj, hj'⟩ := hfy
          refine ⟨L, i - j, ?_, by omega⟩
          rw [hi, hj] at hv
          push_cast
          linarith
        have a3 : (gap.elim y (y.add fp)).add gp t = (gap.elim y (y.add fp)).add fp t := un_add G hy2 ht (by omega)
        have a4 : f.moved gp (gap.elim y (y.add fp)) = f.moved fp (gap.elim y (y.add fp)) := by
          simp only [Figures.moved, un_add G hfy hy1 (by omega)]
        have ih := un_stack L G hB hs hw hh ((hy2.add ht (by omega)).2.mono (by omega)) (bm := some f.below) (by rintro _ ⟨⟩; exact hf'.below)
          (fun c h => hc c (by simp [h])) (fun c h => hp c (by simp [h])) e4 (fun k h => hk k (by simp [h])) fun g js h => hky g js (by simp [h])
        refine ⟨_, e1', ?_⟩
        simp only [Option.bind_eq_some_iff, Option.some.injEq]
        exact ⟨gap, e2, t, by rw [a2]; exact e3, rest, by rw [a1, a3]; exact ih, by rw [a1, a4]⟩
    · rename_i hbl
      rw [if_neg hbl]
      exact h

theorem tame_self {s : CSS} (h : s.Tame fp gp d B) : s.Tame fp fp d B := ⟨fun _ _ _ _ _ _ => rfl, h.near, h.offset⟩

theorem un_plan (L : fp.Laws) (G : gp.Laws) (hB : B ≤ 2 ^ 47) (hd : d.Tame fp B) (n : Node) : Unrounded fp gp d B n := by
  induction n using Node.ind with
  | h s z l cs ih =>
    intro q r k hn hq hW hH h hk
    unfold Node.plan at h ⊢
    dsimp only at h ⊢
    by_cases hhid : (s.get .display).isNone = true
    · rw [if_pos hhid] at h ⊢
      exact ⟨h, fun f js e => by subst e; cases h⟩
    · rw [if_neg hhid] at h ⊢
      have hv : ¬ (Node.mk s z l cs).Hidden := by
        intro hx
        refine hhid ?_
        have : s.get .display = .none := hx
        rw [this]; rfl
      obtain ⟨hs, hz⟩ := hn _ (.here hv)
      have hs : s.Tame fp gp d B := hs
      have hz : z.Tame fp B := hz
      have hc : ∀ c ∈ cs, c.Tame fp gp d B := fun c hc m hm => hn m (.step hv hc hm)
      simp only [Option.bind_eq_bind, Option.bind_eq_some_iff, Option.some.injEq] at h
      obtain ⟨kind, e1, ⟨m, b, p⟩, e2, ⟨w, left, right⟩, e3, ⟨top, bottom⟩, e4, guess, e5, kids, e6, hgt, e7, ⟨x', y'⟩, e8, rfl⟩ := h
      cases hk with
      | mk hf hkids hkidsy =>
      obtain ⟨a2, b2⟩ := un_edges L hd hs hW hH
      obtain ⟨hm, hb, hp⟩ := b2 _ e2
      dsimp only at hm hb hp
      have a3 := un_across L G hB hs hz l cs hW hm hb hp kind
      have hw : NearSize fp B w := hf.width
      have hleft : Near fp B left := hf.margin.left left rfl
      have htop : Near fp B top := hf.margin.top top rfl
      have a4 := un_plus G (B := B) [b.left, p.left] hleft (by simp [hb.left, hp.left]) (by simp; omega)
      obtain ⟨a5, b5⟩ := un_lowering L G hB htop hb hp kind
      have hg : NearSize fp B guess := by
        dsimp only at e5
        split at e5
        · exact guess_near L hB (tame_self hs) hH e5 e7 hf.height
        · cases e5; rintro _ ⟨⟩; exact near_0 L B
      have a7 := un_along L G hB hs hq hz l cs hH (blank_last L cs) (k := kind) hw
      have a8 := un_along L G hB hs hq hz l cs hH (last_tame hkids hkidsy) (k := kind) hw
      have hx : Near fp (3 * B) (if kind = .inline then Num.int 0 else (Num.int 0).replacing (left.plus fp [b.left, p.left])) := by
        split
        · exact near_0 L _
        · exact near_replacing (a4.2.mono (by simp; omega))
      have a9 := un_add G (near_0 L 0) b5 (by omega)
      have hy : Near fp (3 * B) (if (s.get .position).isKw "relative" = true then (Num.int 0).replacing ((Num.int 0).add fp (lowering fp top b p kind)) else Num.int 0) := by
        split
        · exact near_replacing (((near_0 L 0).add b5 (by omega)).2.mono (by omega))
        · exact near_0 L _
      have a10 := un_moves L G hB hs hW hH
      simp only [a2, a3, e1, e2, e3, e4, Option.bind_eq_bind, Option.bind_some, a4.1, a5, a7, a9]
      revert e5 e6 e8
      dsimp only
      generalize (if kind = .inline then Num.int 0 else (Num.int 0).replacing (left.plus fp [b.left, p.left])) = x at hx ⊢
      generalize (if (s.get .position).isKw "relative" = true then (Num.int 0).replacing ((Num.int 0).add fp (lowering fp top b p kind)) else Num.int 0) = y at hy ⊢
      intro e5 e6 e8
      have hy2 := hy.add b5 (by omega)
      have hy3 : Near fp (6 * B) (y.replacing (y.add fp (lowering fp top b p kind))) := near_replacing (hy2.2.mono (by omega))
      have hkids' : (if (Node.mk s z l cs).piles = true then stackPlans gp d s ⟨w, guess, some (x, y)⟩ (.int 0) none cs else flowPlans gp d s ⟨w, guess, some (x, y)⟩ cs) = some kids := by
        split at e6
        · rename_i hpl
          rw [if_pos hpl]
          exact un_stack L G hB hs hw hg (near_0 L _) nofun ih hc e6 hkids hkidsy
        · rename_i hpl
          rw [if_neg hpl]
          exact un_flow hs hw hg ih hc e6 hkids
      rw [e5]
      simp only [Option.bind_some]
      rw [hkids']
      simp only [Option.bind_some]
      rw [a8, e7]
      simp only [Option.bind_some]
      rw [un_add G hy b5 (by omega), a10.1]
      generalize y.replacing (y.add fp (lowering fp top b p kind)) = y3 at e8 hy3 ⊢
      by_cases hrel : (s.get .position).isKw "relative" = true
      · rw [if_pos hrel] at e8 ⊢
        cases hmv : s.moves fp d r with
        | none => rw [hmv] at e8; cases e8
        | some v =>
          obtain ⟨dx, dy⟩ := v
          obtain ⟨hdx, hdy⟩ := a10.2 _ hmv
          rw [hmv] at e8
          simp only [Option.map_some, Option.some.injEq, Prod.mk.injEq] at e8
          obtain ⟨rfl, rfl⟩ := e8
          simp only [Option.map_some, Option.bind_some, un_add G hx hdx (by omega), un_add G hy3 hdy (by omega)]
          refine ⟨trivial, ?_⟩
          rintro f js ⟨⟩
          exact near_replacing ((hy3.add hdy (by omega)).2.mono (by omega))
      · rw [if_neg hrel] at e8 ⊢
        simp only [Option.some.injEq, Prod.mk.injEq] at e8
        obtain ⟨rfl, rfl⟩ := e8
        refine ⟨rfl, ?_⟩
        rintro f js ⟨⟩
        exact hy3.mono (by omega)

end Colosseum
