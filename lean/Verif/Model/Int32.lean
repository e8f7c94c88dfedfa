/-
The index arithmetic evaluated in 32-bit signed `int`, with overflow as a distinct outcome.
-/
import Verif.Model.Grid3
import Verif.Model.Grid2

namespace Madg

/-- Values of `int` and of `int_t` (typedefs.hpp:6, `std::int32_t`). -/
def fits32 (x : Int) : Prop := -2147483648 ≤ x ∧ x ≤ 2147483647

instance (x : Int) : Decidable (fits32 x) := by unfold fits32; infer_instance

/-- Result of a signed operation whose exact value is `x`; `none` is signed overflow, undefined in C++
(`int_t`, typedefs.hpp:6). -/
def chk32 (x : Int) : Option Int := if fits32 x then some x else none

/-- `a + b` on `int`, as used throughout data_structures/managed_array_3d.hpp:8-43. -/
def add32 (a b : Int) : Option Int := chk32 (a + b)
/-- `a - b` on `int` (data_structures/managed_array_3d.hpp:38-43). -/
def sub32 (a b : Int) : Option Int := chk32 (a - b)
/-- `a * b` on `int` (data_structures/managed_array_3d.hpp:8-43). -/
def mul32 (a b : Int) : Option Int := chk32 (a * b)
/-- `a / b` on `int`, rounding towards zero; `none` on division by zero (data_structures/managed_array_3d.hpp:38-43). -/
def div32 (a b : Int) : Option Int := if b = 0 then none else chk32 (a.tdiv b)
/-- `a % b` on `int`, sign of the dividend; `none` on division by zero or when `a / b` overflows
(data_structures/managed_array_3d.hpp:38-43). -/
def mod32 (a b : Int) : Option Int := if b = 0 then none else (chk32 (a.tdiv b)).bind fun _ => some (a.tmod b)

/-- Padded extent `n + 2 * nhalo` (data_structures/managed_array_3d.hpp:59-71, managed_array_2d.hpp:45-48). -/
def padded32 (n nhalo : Int) : Option Int := do
  let t ← mul32 2 nhalo
  add32 n t

/-- `(ni + 2*nhalo) * (nj + 2*nhalo) * (nk + 2*nhalo)` (data_structures/managed_array_3d.hpp:131). -/
def Grid3.size32 (g : Grid3) : Option Int := do
  let a ← padded32 g.ni g.nhalo
  let b ← padded32 g.nj g.nhalo
  let ab ← mul32 a b
  let c ← padded32 g.nk g.nhalo
  mul32 ab c

/-- `get1DindexFrom3D` (data_structures/managed_array_3d.hpp:8-12) in `int`. -/
def get1DindexFrom3D32 (i j k nhalo njhalo nkhalo : Int) : Option Int := do
  let a ← add32 i nhalo
  let b ← mul32 njhalo nkhalo
  let ab ← mul32 a b
  let c ← add32 j nhalo
  let d ← mul32 c nkhalo
  let e ← add32 ab d
  let f ← add32 k nhalo
  add32 e f

/-- Element access `operator()(i, j, k)` (data_structures/managed_array_3d.hpp:23-36, 52-55) with the extents stored by the
constructor. -/
def Grid3.at32 (g : Grid3) (i j k : Int) : Option Int := do
  let nj ← padded32 g.nj g.nhalo
  let nk ← padded32 g.nk g.nhalo
  get1DindexFrom3D32 i j k g.nhalo nj nk

/-- `getIJK` (data_structures/managed_array_3d.hpp:38-43) in `int`. -/
def Grid3.getIJK32 (g : Grid3) (idx : Int) : Option (Int × Int × Int) := do
  let nj ← padded32 g.nj g.nhalo
  let nk ← padded32 g.nk g.nhalo
  let p ← mul32 nj nk
  let q ← div32 idx p
  let i ← sub32 q g.nhalo
  let r ← div32 idx nk
  let s ← mod32 r nj
  let j ← sub32 s g.nhalo
  let t ← mod32 idx nk
  let k ← sub32 t g.nhalo
  return (i, j, k)

/-- `(ni+2*nhalo)*(nj+2*nhalo)` (data_structures/managed_array_2d.hpp:85). -/
def Grid2.size32 (g : Grid2) : Option Int := do
  let a ← padded32 g.ni g.nhalo
  let b ← padded32 g.nj g.nhalo
  mul32 a b

/-- `get1Dindex` (data_structures/managed_array_2d.hpp:8-12) in `int`: `(i + nhalo) * njhalo + nhalo + j`. -/
def get1Dindex32 (i j nhalo njhalo : Int) : Option Int := do
  let a ← add32 i nhalo
  let b ← mul32 a njhalo
  let c ← add32 b nhalo
  add32 c j

/-- Element access (data_structures/managed_array_2d.hpp:23, 37). -/
def Grid2.at32 (g : Grid2) (i j : Int) : Option Int := do
  let nj ← padded32 g.nj g.nhalo
  get1Dindex32 i j g.nhalo nj

/-- `getIJ` (data_structures/managed_array_2d.hpp:25-29) in `int`. -/
def Grid2.getIJ32 (g : Grid2) (idx : Int) : Option (Int × Int) := do
  let nj ← padded32 g.nj g.nhalo
  let q ← div32 idx nj
  let i ← sub32 q g.nhalo
  let t ← mod32 idx nj
  let j ← sub32 t g.nhalo
  return (i, j)

/-- Conversion of an integer to `int_t`: reduction modulo 2^32 into the signed range (two's complement; what every
supported compiler does and what C++20 prescribes; data_structures/memory_manager.cpp:82, 112, 242-247). -/
def toInt32 (x : Int) : Int := (x + 2147483648) % 4294967296 - 2147483648

/-- Conversion of an `int_t` to `size_t` (64-bit; data_structures/memory_manager.cpp:82, 112, 242-247). -/
def toSizeT (x : Int) : Int := x % 18446744073709551616

/-- Byte count recorded by `allocate` for `n` elements of `e` bytes: `int_t(size * sizeof(BaseType))`, the product being
taken in `size_t` (data_structures/memory_manager.cpp:82, and 112 for views). -/
def recordedBytes (e n : Int) : Int := toInt32 ((toSizeT n * e) % 18446744073709551616)

/-- `MemoryManager::size`: `data_sizes_.at(...) / sizeof(BaseType)`, an unsigned division, converted to `int_t`
(data_structures/memory_manager.cpp:242-247). -/
def reportedSize (e n : Int) : Int := toInt32 (toSizeT (recordedBytes e n) / e)

end Madg
