import Verif.Model.Ufunc

/-!
# The numpy module with the exponential alone

Model of `src/expfWrapper.c`, the module from which `src/vdtNumpyWrapper.c` grew.  What numpy does with the tables is
assumed as in `Model/Ufunc.lean`.
-/

namespace Vdt.Py
open Vdt.Txt (Text)

local notation "‹" s "›" => String.toList s

namespace Np
/-- src/expfWrapper.c:27-40 -/
def vdt_vf : LoopT := ⟨true, 1, 1⟩
/-- src/expfWrapper.c:42-54 -/
def vdt_vd : LoopT := ⟨false, 1, 1⟩
/-- src/expfWrapper.c:58 -/
def funcs : List LoopT := [vdt_vf, vdt_vd]
/-- src/expfWrapper.c:61 -/
def types : List Bool := [true, true, false, false]
/-- src/expfWrapper.c:63 -/
def data : List Text := [‹"vdt_expfv"›, ‹"vdt_expv"›]
/-- src/expfWrapper.c:93-98 (Python 3) and 117-123 (Python 2): the names of the module and what they stand for. -/
def dict : List (Text × Ufunc) := [(‹"vdt_expv"›, ⟨funcs, data, types, 2, 1, 1, ‹"vdt_expv"›⟩)]
end Np

end Vdt.Py
