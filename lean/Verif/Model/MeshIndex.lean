import Mathlib.Algebra.Ring.Int.Defs

/-!
# Structured mesh index arithmetic

C++ `int` is modelled by `ℤ` (overflow not modelled).
-/

namespace Fierro

/-- `get_id`, apps/multiphysics/src/common/include/mesh_io.hpp:74-77.
Polymorphic so that it can be used with `ℤ` (C++ `int`) and with `ℕ` (loop counters). -/
def getId {R : Type} [Add R] [Mul R] (i j k numI numJ : R) : R :=
  i + j * numI + k * numI * numJ

/-- `PointIndexFromIJK`, apps/multiphysics/src/common/include/mesh_io.hpp:89-132.
`o0 o1 o2` are `order[0..2]`.  The C++ conditions `i ? _ : _` test `i ≠ 0`. -/
def pointIndexFromIJK (i j k o0 o1 o2 : ℤ) : ℤ :=
  let ibdy : Bool := i == 0 || i == o0
  let jbdy : Bool := j == 0 || j == o1
  let kbdy : Bool := k == 0 || k == o2
  let nbdy : ℕ := (if ibdy then 1 else 0) + (if jbdy then 1 else 0) + (if kbdy then 1 else 0)
  if nbdy = 3 then
    (if i ≠ 0 then (if j ≠ 0 then 2 else 1) else (if j ≠ 0 then 3 else 0)) + (if k ≠ 0 then 4 else 0)
  else
    let offset : ℤ := 8
    if nbdy = 2 then
      if !ibdy then
        (i - 1) + (if j ≠ 0 then o0 - 1 + o1 - 1 else 0)
          + (if k ≠ 0 then 2 * (o0 - 1 + o1 - 1) else 0) + offset
      else if !jbdy then
        (j - 1) + (if i ≠ 0 then o0 - 1 else 2 * (o0 - 1) + o1 - 1)
          + (if k ≠ 0 then 2 * (o0 - 1 + o1 - 1) else 0) + offset
      else
        let offset := offset + (4 * (o0 - 1) + 4 * (o1 - 1))
        (k - 1) + (o2 - 1) * (if i ≠ 0 then (if j ≠ 0 then 3 else 1) else (if j ≠ 0 then 2 else 0))
          + offset
    else
      let offset := offset + 4 * (o0 - 1 + o1 - 1 + o2 - 1)
      if nbdy = 1 then
        if ibdy then
          (j - 1) + ((o1 - 1) * (k - 1)) + (if i ≠ 0 then (o1 - 1) * (o2 - 1) else 0) + offset
        else
          let offset := offset + 2 * (o1 - 1) * (o2 - 1)
          if jbdy then
            (i - 1) + ((o0 - 1) * (k - 1)) + (if j ≠ 0 then (o2 - 1) * (o0 - 1) else 0) + offset
          else
            let offset := offset + 2 * (o2 - 1) * (o0 - 1)
            (i - 1) + ((o0 - 1) * (j - 1)) + (if k ≠ 0 then (o0 - 1) * (o1 - 1) else 0) + offset
      else
        let offset := offset +
          2 * ((o1 - 1) * (o2 - 1) + (o2 - 1) * (o0 - 1) + (o0 - 1) * (o1 - 1))
        offset + (i - 1) + (o0 - 1) * ((j - 1) + (o1 - 1) * (k - 1))

end Fierro
