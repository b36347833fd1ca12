import Verif.Proofs.ClApx
import Verif.Model.Cl2
import Verif.Model.Cl3
import Verif.Model.Cl4
import Verif.Model.Cl5
import Verif.Model.Cl6

/-! # Certificates of the rational approximations of the Clausen functions, long double, low branch (generated) -/

namespace Polylog
theorem cert_cl2llo : rcert 24 6 0 12337 9999 (vZ (10 ^ 59) cl2lloP) (vZ (10 ^ 59) cl2lloQ) (paff 12337005501361698273543113749845188919143 10000000000000000000000000000000000000001 10000000000000000000000000000000000000001 ((clLo2.drop 1).take 36)) (2 ^ 190 * 10000000000000000000000000000000000000001 ^ 35) 65 (10 ^ 43) (850 * 10 ^ 56) = true := by decide +kernel
theorem den_cl2llo : (cl2lloP.toList ++ cl2lloQ.toList).all (fun q => (q * 10 ^ 59).den == 1) = true := by decide +kernel
theorem bnd_cl2llo : vAbs cl2lloP 12339e-4 ≤ 158e-4 ∧ vAbs cl2lloQ 12339e-4 ≤ 114e-2 ∧ (lipB 24677e-4 ((clLo2.drop 1).take 36)).1 ≤ 141e-4 * (2 ^ 190 : ℤ) ∧ (lipB 24677e-4 ((clLo2.drop 1).take 36)).2 ≤ 74e-6 * (2 ^ 190 : ℤ) := by decide +kernel
theorem cert_cl3llo : rcert 24 6 0 12337 9999 (vZ (10 ^ 57) cl3lloP) (vZ (10 ^ 57) cl3lloQ) (paff 12337005501361698273543113749845188919143 10000000000000000000000000000000000000001 10000000000000000000000000000000000000001 ((clLo3.drop 1).take 36)) (2 ^ 190 * 10000000000000000000000000000000000000001 ^ 35) 35 (10 ^ 42) (850 * 10 ^ 54) = true := by decide +kernel
theorem den_cl3llo : (cl3lloP.toList ++ cl3lloQ.toList).all (fun q => (q * 10 ^ 57).den == 1) = true := by decide +kernel
theorem bnd_cl3llo : vAbs cl3lloP 12339e-4 ≤ 837e-3 ∧ vAbs cl3lloQ 12339e-4 ≤ 112e-2 ∧ (lipB 24677e-4 ((clLo3.drop 1).take 36)).1 ≤ 759e-3 * (2 ^ 190 : ℤ) ∧ (lipB 24677e-4 ((clLo3.drop 1).take 36)).2 ≤ 36e-4 * (2 ^ 190 : ℤ) := by decide +kernel
theorem cert_cl4llo : rcert 24 6 0 12337 9999 (vZ (10 ^ 58) cl4lloP) (vZ (10 ^ 58) cl4lloQ) (paff 12337005501361698273543113749845188919143 10000000000000000000000000000000000000001 10000000000000000000000000000000000000001 ((clLo4.drop 1).take 36)) (2 ^ 190 * 10000000000000000000000000000000000000001 ^ 35) 19 (10 ^ 42) (850 * 10 ^ 55) = true := by decide +kernel
theorem den_cl4llo : (cl4lloP.toList ++ cl4lloQ.toList).all (fun q => (q * 10 ^ 58).den == 1) = true := by decide +kernel
theorem bnd_cl4llo : vAbs cl4lloP 12339e-4 ≤ 339e-3 ∧ vAbs cl4lloQ 12339e-4 ≤ 111e-2 ∧ (lipB 24677e-4 ((clLo4.drop 1).take 36)).1 ≤ 308e-3 * (2 ^ 190 : ℤ) ∧ (lipB 24677e-4 ((clLo4.drop 1).take 36)).2 ≤ 71e-5 * (2 ^ 190 : ℤ) := by decide +kernel
theorem cert_cl5llo : rcert 24 6 12337 12337 9999 (vZ (10 ^ 59) cl5lloP) (vZ (10 ^ 59) cl5lloQ) (clLo5.take 37) (2 ^ 190) 23 (10 ^ 40) (850 * 10 ^ 56) = true := by decide +kernel
theorem den_cl5llo : (cl5lloP.toList ++ cl5lloQ.toList).all (fun q => (q * 10 ^ 59).den == 1) = true := by decide +kernel
theorem bnd_cl5llo : vAbs cl5lloP 24677e-4 ≤ 355e-2 ∧ vAbs cl5lloQ 24677e-4 ≤ 117e-2 ∧ (lipB 24677e-4 (clLo5.take 37)).1 ≤ 306e-2 * (2 ^ 190 : ℤ) ∧ (lipB 24677e-4 (clLo5.take 37)).2 ≤ 11e-1 * (2 ^ 190 : ℤ) := by decide +kernel
theorem cert_cl6llo : rcert 24 6 12337 12337 9999 (vZ (10 ^ 59) cl6lloP) (vZ (10 ^ 59) cl6lloQ) (clLo6.take 37) (2 ^ 190) 89 (10 ^ 40) (850 * 10 ^ 56) = true := by decide +kernel
theorem den_cl6llo : (cl6lloP.toList ++ cl6lloQ.toList).all (fun q => (q * 10 ^ 59).den == 1) = true := by decide +kernel
theorem bnd_cl6llo : vAbs cl6lloP 24677e-4 ≤ 193e-2 ∧ vAbs cl6lloQ 24677e-4 ≤ 117e-2 ∧ (lipB 24677e-4 (clLo6.take 37)).1 ≤ 165e-2 * (2 ^ 190 : ℤ) ∧ (lipB 24677e-4 (clLo6.take 37)).2 ≤ 3e-1 * (2 ^ 190 : ℤ) := by decide +kernel

end Polylog
