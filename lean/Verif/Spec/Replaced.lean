import Verif.Spec.Document

/-!
# The sizes of inline replaced elements in CSS 2.1
-/

namespace Colosseum

/-- What the rules look at: the specified width and height (`none` is `auto`), and the intrinsic width, height and
ratio of width to height (`none` where the element does not have them). -/
structure Replaced where
  (width height iw ih ratio : Option Rat)

/-- CSS 2.1, 10.3.2. `avail` is the width found by the equation of 10.3.3. -/
def Replaced.cssWidth (r : Replaced) (avail : Rat) : Rat :=
  match r.width, r.height, r.iw, r.ih, r.ratio with
  | some w, _, _, _, _ => w
  | none, none, some w, _, _ => w
  | none, none, none, some h, some q => h * q
  | none, some h, _, _, some q => h * q
  | none, none, none, none, some _ => avail
  | none, _, some w, _, none => w
  | none, _, none, _, none => 300

/-- CSS 2.1, 10.6.2; `w` is the used width. -/
def Replaced.cssHeight (r : Replaced) (w : Rat) : Rat :=
  match r.height, r.width, r.ih, r.ratio with
  | some h, _, _, _ => h
  | none, none, some h, _ => h
  | none, _, _, some q => w / q
  | none, some _, some h, none => h
  | none, _, none, none => min (w / 2) 150

/-- A specified size: `auto`, or a length other than a percentage. -/
def Val.Specified (v : Val) (fp : FP) (d : Display) (x : Option Rat) : Prop :=
  v = kw "auto" ∧ x = Option.none ∨ ∃ y, v.Length fp d (dummyFont fp) y ∧ x = some y.val

/-- A node is an inline replaced element with these sizes. -/
structure Node.IsReplaced (n : Node) (fp : FP) (d : Display) (r : Replaced) : Prop where
  inline : n.style.get .display = kw "inline"
  replaced : n.intrinsic.isReplaced = true
  width : (n.style.get .width).Specified fp d r.width
  height : (n.style.get .height).Specified fp d r.height
  iw : r.iw = n.intrinsic.width.map Num.val
  ih : r.ih = n.intrinsic.height.map Num.val
  ratio : r.ratio = n.intrinsic.ratio.map Num.val

end Colosseum
