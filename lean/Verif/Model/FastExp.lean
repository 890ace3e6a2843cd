import Verif.Model.Arith

/-! # Fast exponential (src/fast_exp.h) -/

namespace Trento
variable {F : Type} [Arith F]

/-- `class FastExp` data members (src/fast_exp.h:38-45). -/
structure FastExp (F : Type) where
  xmin : F
  xmax : F
  dx : F
  table : List F

/-- `FastExp<T>::FastExp(xmin, xmax, nsteps)` (src/fast_exp.h:49-57).
`nsteps-1` is unsigned: for `nsteps = 0` it wraps around to 2^64-1. -/
def FastExp.make (xmin xmax : F) (nsteps : Nat) : FastExp F :=
  let nm1 : Nat := if nsteps = 0 then 18446744073709551615 else nsteps - 1
  let dx := (xmax - xmin) / ofInt nm1
  { xmin := xmin
    xmax := xmax
    dx := dx
    table := (List.range nsteps).map fun (i : Nat) => exp (xmin + ofInt i * dx) }

/-- `FastExp<T>::operator()` (src/fast_exp.h:59-74).  `debug` = `NDEBUG` not defined.
Reading `table_[index]` past the end is undefined behaviour. -/
def FastExp.eval (fe : FastExp F) (debug : Bool) (x : F) : Res F :=
  if debug && (lt x fe.xmin || lt fe.xmax x) then
    .error (.throw .outOfRange "argument must be within [xmin, xmax]")
  else
    match castSize ((x - fe.xmin) / fe.dx + lit 0.5) with
    | .error e => .error e
    | .ok index =>
      match fe.table[index]? with
      | none => .error (.ub "FastExp table index out of bounds")
      | some t => .ok (t * (lit 1 + x - fe.xmin - ofInt index * fe.dx))

end Trento
