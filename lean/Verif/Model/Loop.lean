/-
Loop ranges and index-list driven loops.
-/
import Verif.Model.Prog

namespace Madg

/-- The values of `for (int x = lo; x < hi; ++x)` in order (e.g.
spatial_discretization/discretization_3d_cart.cpp:38). -/
def irange (lo hi : Int) : List Int := (List.range (hi - lo).toNat).map (fun n : Nat => lo + n)

/-- `maDGForAll(i, lo, hi, body)` (data_structures/exec_includes.hpp:26-86): one iteration per value. -/
def forAll {A K : Type} (lo hi : Int) (body : Int → Prog A K Unit) : Pool A K := (irange lo hi).map body

/-- `maDGForAll(ii, 0, idx.size(), { ... idx[ii] ... })`: loop over the positions of an index list, reading
the list with a checked access (data_structures/exec_includes.hpp:26-86, data_structures/span.hpp:14-20). -/
def forIdx {A K : Type} (l : List Int) (body : Int → Prog A K Unit) : Pool A K :=
  (List.range l.length).map (fun ii => (Prog.idx l ii).bind body)

/-- Filling a freshly allocated (zero-initialised) list of length `n` by
`list[counter] = v; counter++` for the values `vs` in order
(spatial_discretization/discretization_3d_cart.cpp:35-45, 85-139,
discretization_2d_cart.cpp:19-63; zero fill data_structures/managed_array.hpp:22-33).
Running past the end is undefined behaviour. -/
def fillList (n : Int) (vs : List Int) : Except Err (List Int) :=
  if (vs.length : Int) ≤ n then .ok (vs ++ List.replicate (n.toNat - vs.length) 0)
  else .error .outOfBounds

end Madg
