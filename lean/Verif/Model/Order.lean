import Verif.Model.Values

/-!
# The order of units

The comparisons `a < b`, `a > b`, `a <= b` and `a >= b` of two values of which at least one is a unit, as
the expressions evaluate: only `Percent` defines an ordering method, and only `__lt__`
(`/repo/src/colosseum/units.py:163-164`). Comparisons of two values neither of which is a unit are Python's
own and not modelled here. A value of constructor `Val.obj` is taken to have no attribute `val`.
-/

namespace Colosseum

/-- `Percent.__lt__(u, v)` (`/repo/src/colosseum/units.py:163-164`): `AttributeError` if `v` has no `val`,
which of the modelled values only units have (`/repo/src/colosseum/units.py:33`). -/
def percentLt (u : CUnit) (v : Val) : Res Bool :=
  match v with
  | .unit w => .ok (u.val.pyLt w.val)
  | _ => .error .attribute

/-- `a < b` where `a` or `b` is a unit. Python calls `a.__lt__(b)` and, if that is not implemented,
`b.__gt__(a)`, which no unit implements; numbers and strings do not implement either for a unit. -/
def lessThan (a b : Val) : Res Bool :=
  match a with
  | .unit u => if u.kind = .len .percent then percentLt u b else .error .type
  | _ => .error .type

/-- `a > b` where `a` or `b` is a unit. Python calls `a.__gt__(b)`, which nothing implements here, and then
`b.__lt__(a)`, also when both have the same class. -/
def greaterThan (a b : Val) : Res Bool :=
  match b with
  | .unit u => if u.kind = .len .percent then percentLt u a else .error .type
  | _ => .error .type

/-- `a <= b` where `a` or `b` is a unit: neither `__le__` nor `__ge__` is implemented by any unit
(`/repo/src/colosseum/units.py:28-164`), and Python does not derive them from `__lt__` and `__eq__`. -/
def lessEqual (_a _b : Val) : Res Bool := .error .type

/-- `a >= b` where `a` or `b` is a unit, see `lessEqual`. -/
def greaterEqual (_a _b : Val) : Res Bool := .error .type

end Colosseum
