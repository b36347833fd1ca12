import Verif.Proofs.ClApx
import Verif.Model.Cl2
import Verif.Model.Cl3
import Verif.Model.Cl4
import Verif.Model.Cl5
import Verif.Model.Cl6

/-! # Certificates of the rational approximations of the Clausen functions, long double, high branch (generated) -/

namespace Polylog
theorem cert_cl2lhi : rcert 36 7 0 12337 9999 (vZ (10 ^ 58) cl2lhiP) (vZ (10 ^ 58) cl2lhiQ) (paff 12337005501361698273543113749845188919143 10000000000000000000000000000000000000001 10000000000000000000000000000000000000001 (clHi2.take 72)) (2 ^ 240 * 10000000000000000000000000000000000000001 ^ 71) 15 (10 ^ 41) (420 * 10 ^ 55) = true := by decide +kernel
theorem den_cl2lhi : (cl2lhiP.toList ++ cl2lhiQ.toList).all (fun q => (q * 10 ^ 58).den == 1) = true := by decide +kernel
theorem bnd_cl2lhi : vAbs cl2lhiP 12339e-4 ≤ 151e-2 ∧ vAbs cl2lhiQ 12339e-4 ≤ 217e-2 ∧ (lipB 24677e-4 (clHi2.take 72)).1 ≤ 804e-3 * (2 ^ 240 : ℤ) ∧ (lipB 24677e-4 (clHi2.take 72)).2 ≤ 48e-3 * (2 ^ 240 : ℤ) := by decide +kernel
theorem cert_cl3lhi : rcert 16 4 0 12337 9999 (vZ (10 ^ 65) cl3lhiP) (vZ (10 ^ 65) cl3lhiQ) (paff 12337005501361698273543113749845188919143 10000000000000000000000000000000000000001 10000000000000000000000000000000000000001 (clHi3.take 56)) (2 ^ 240 * 10000000000000000000000000000000000000001 ^ 55) 17 (10 ^ 27) (66 * 10 ^ 62) = true := by decide +kernel
theorem den_cl3lhi : (cl3lhiP.toList ++ cl3lhiQ.toList).all (fun q => (q * 10 ^ 65).den == 1) = true := by decide +kernel
theorem bnd_cl3lhi : vAbs cl3lhiP 12339e-4 ≤ 124e-1 ∧ vAbs cl3lhiQ 12339e-4 ≤ 137e-1 ∧ (lipB 24677e-4 (clHi3.take 56)).1 ≤ 183e-2 * (2 ^ 240 : ℤ) ∧ (lipB 24677e-4 (clHi3.take 56)).2 ≤ 41e-2 * (2 ^ 240 : ℤ) := by decide +kernel
theorem cert_cl4lhi : rcert 16 4 0 12337 9999 (vZ (10 ^ 57) cl4lhiP) (vZ (10 ^ 57) cl4lhiQ) (paff 12337005501361698273543113749845188919143 10000000000000000000000000000000000000001 10000000000000000000000000000000000000001 (clHi4.take 56)) (2 ^ 240 * 10000000000000000000000000000000000000001 ^ 55) 17 (10 ^ 27) (169 * 10 ^ 54) = true := by decide +kernel
theorem den_cl4lhi : (cl4lhiP.toList ++ cl4lhiQ.toList).all (fun q => (q * 10 ^ 57).den == 1) = true := by decide +kernel
theorem bnd_cl4lhi : vAbs cl4lhiP 12339e-4 ≤ 329e-2 ∧ vAbs cl4lhiQ 12339e-4 ≤ 365e-2 ∧ (lipB 24677e-4 (clHi4.take 56)).1 ≤ 12e-1 * (2 ^ 240 : ℤ) ∧ (lipB 24677e-4 (clHi4.take 56)).2 ≤ 13e-2 * (2 ^ 240 : ℤ) := by decide +kernel
theorem cert_cl5lhi : rcert 16 4 0 12337 9999 (vZ (10 ^ 66) cl5lhiP) (vZ (10 ^ 66) cl5lhiQ) (paff 12337005501361698273543113749845188919143 10000000000000000000000000000000000000001 10000000000000000000000000000000000000001 (clHi5.take 56)) (2 ^ 240 * 10000000000000000000000000000000000000001 ^ 55) 31 (10 ^ 27) (60 * 10 ^ 63) = true := by decide +kernel
theorem den_cl5lhi : (cl5lhiP.toList ++ cl5lhiQ.toList).all (fun q => (q * 10 ^ 66).den == 1) = true := by decide +kernel
theorem bnd_cl5lhi : vAbs cl5lhiP 12339e-4 ≤ 137e-1 ∧ vAbs cl5lhiQ 12339e-4 ≤ 141e-1 ∧ (lipB 24677e-4 (clHi5.take 56)).1 ≤ 227e-2 * (2 ^ 240 : ℤ) ∧ (lipB 24677e-4 (clHi5.take 56)).2 ≤ 6e-1 * (2 ^ 240 : ℤ) := by decide +kernel
theorem cert_cl6lhi : rcert 16 4 0 12337 9999 (vZ (10 ^ 65) cl6lhiP) (vZ (10 ^ 65) cl6lhiQ) (paff 12337005501361698273543113749845188919143 10000000000000000000000000000000000000001 10000000000000000000000000000000000000001 (clHi6.take 56)) (2 ^ 240 * 10000000000000000000000000000000000000001 ^ 55) 19 (10 ^ 27) (55 * 10 ^ 62) = true := by decide +kernel
theorem den_cl6lhi : (cl6lhiP.toList ++ cl6lhiQ.toList).all (fun q => (q * 10 ^ 65).den == 1) = true := by decide +kernel
theorem bnd_cl6lhi : vAbs cl6lhiP 12339e-4 ≤ 16 ∧ vAbs cl6lhiQ 12339e-4 ≤ 165e-1 ∧ (lipB 24677e-4 (clHi6.take 56)).1 ≤ 138e-2 * (2 ^ 240 : ℤ) ∧ (lipB 24677e-4 (clHi6.take 56)).2 ≤ 18e-2 * (2 ^ 240 : ℤ) := by decide +kernel

end Polylog
