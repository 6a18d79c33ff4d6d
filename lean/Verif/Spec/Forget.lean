import Verif.Model.Values

/-!
# Values without the identity of objects
-/

namespace Colosseum

/-- Forget which object a value is, keeping its contents. -/
def CurItem.forget : CurItem → CurItem
  | .opt s => .opt s
  | .uri _ s => .uri (.shared 0) s

/-- Forget which object a value is, keeping its contents. -/
def Val.forget : Val → Val
  | .color _ c => .color (.shared 0) c
  | .uri _ s => .uri (.shared 0) s
  | .borderSpacing _ h v => .borderSpacing (.shared 0) h v
  | .cursor xs => .cursor (xs.map CurItem.forget)
  | v => v

end Colosseum
