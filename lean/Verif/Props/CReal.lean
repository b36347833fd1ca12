import Verif.Model.CCl2
import Verif.Model.CCl3
import Verif.Model.CCl4
import Verif.Model.CCl5
import Verif.Model.CCl6
import Verif.Model.CLi2
import Verif.Model.CLi3
import Verif.Model.CLi4
import Verif.Model.Cl2
import Verif.Model.Cl3
import Verif.Model.Cl4
import Verif.Model.Cl5
import Verif.Model.Cl6
import Verif.Model.Li2
import Verif.Model.Li3
import Verif.Model.Li4

/-! # C36: the real functions of the C port are the C++ functions -/

namespace Polylog
open FOps

section
variable {F : Type} [FOps F]

theorem C36_li2f (x : F) : C.li2f x = Li2f x := rfl
theorem C36_li2 (x : F) : C.li2 x = Li2d x := rfl
theorem C36_li3 (x : F) : C.li3 x = Li3d x := rfl
theorem C36_li4 (x : F) : C.li4 x = Li4d x := rfl
theorem C36_cl2 (x : F) : C.cl2 x = Cl2d x := rfl
theorem C36_cl2l (x : F) : C.cl2l x = Cl2l x := rfl
theorem C36_cl5 (x : F) : C.cl5 x = Cl5d x := rfl
theorem C36_cl5l (x : F) : C.cl5l x = Cl5l x := rfl
theorem C36_cl6 (x : F) : C.cl6 x = Cl6d x := rfl
theorem C36_cl6l (x : F) : C.cl6l x = Cl6l x := rfl
end
end Polylog
