/-
Text of floating-point numbers.
-/
import Verif.Model.VTK
import Verif.Model.Rounded

namespace Madg

/-- Writing and reading a `real_wp` (file_io/vtk_solution_writer.cpp:69, 86; file_io/vtk_solution_reader.cpp:144): the value held is
what is printed, and parsing yields a value of the type. -/
def RealText.fl {rnd : ℚ → ℚ} (io : RealText ℚ) : RealText (Fl rnd) :=
  ⟨fun x => io.full x.val, fun x => io.short x.val, fun t => (io.parse t).map Fl.mk⟩

end Madg
