import Verif.Proofs.ClApx
import Verif.Model.Cl2
import Verif.Model.Cl3
import Verif.Model.Cl4
import Verif.Model.Cl5
import Verif.Model.Cl6

/-! # Certificates of the rational approximations of the Clausen functions, double (generated) -/

namespace Polylog
theorem cert_cl2dlo : rcert 16 4 12337 12337 9999 (vZ (10 ^ 25) cl2dloP) (vZ (10 ^ 25) cl2dloQ) ((clLo2.drop 1).take 19) (2 ^ 190) 61 (10 ^ 20) (850 * 10 ^ 22) = true := by decide +kernel
theorem den_cl2dlo : (cl2dloP.toList ++ cl2dloQ.toList).all (fun q => (q * 10 ^ 25).den == 1) = true := by decide +kernel
theorem bnd_cl2dlo : vAbs cl2dloP 24677e-4 ≤ 15e-3 ∧ vAbs cl2dloQ 24677e-4 ≤ 11e-1 ∧ (lipB 24677e-4 ((clLo2.drop 1).take 19)).1 ≤ 141e-4 * (2 ^ 190 : ℤ) ∧ (lipB 24677e-4 ((clLo2.drop 1).take 19)).2 ≤ 74e-6 * (2 ^ 190 : ℤ) := by decide +kernel
theorem cert_cl2dhi : rcert 16 4 0 12337 9999 (vZ (10 ^ 24) cl2dhiP) (vZ (10 ^ 24) cl2dhiQ) (paff 123370055013616982737 100000000000000000001 100000000000000000001 (clHi2.take 38)) (2 ^ 240 * 100000000000000000001 ^ 37) 59 (10 ^ 19) (720 * 10 ^ 21) = true := by decide +kernel
theorem den_cl2dhi : (cl2dhiP.toList ++ cl2dhiQ.toList).all (fun q => (q * 10 ^ 24).den == 1) = true := by decide +kernel
theorem bnd_cl2dhi : vAbs cl2dhiP 12339e-4 ≤ 934e-3 ∧ vAbs cl2dhiQ 12339e-4 ≤ 135e-2 ∧ (lipB 24677e-4 (clHi2.take 38)).1 ≤ 804e-3 * (2 ^ 240 : ℤ) ∧ (lipB 24677e-4 (clHi2.take 38)).2 ≤ 48e-3 * (2 ^ 240 : ℤ) := by decide +kernel
theorem cert_cl3dlo : rcert 16 4 12337 12337 9999 (vZ (10 ^ 23) cl3dloP) (vZ (10 ^ 23) cl3dloQ) ((clLo3.drop 1).take 19) (2 ^ 190) 15 (10 ^ 18) (850 * 10 ^ 20) = true := by decide +kernel
theorem den_cl3dlo : (cl3dloP.toList ++ cl3dloQ.toList).all (fun q => (q * 10 ^ 23).den == 1) = true := by decide +kernel
theorem bnd_cl3dlo : vAbs cl3dloP 24677e-4 ≤ 789e-3 ∧ vAbs cl3dloQ 24677e-4 ≤ 107e-2 ∧ (lipB 24677e-4 ((clLo3.drop 1).take 19)).1 ≤ 759e-3 * (2 ^ 190 : ℤ) ∧ (lipB 24677e-4 ((clLo3.drop 1).take 19)).2 ≤ 36e-4 * (2 ^ 190 : ℤ) := by decide +kernel
theorem cert_cl3dhi : rcert 16 4 0 12337 9999 (vZ (10 ^ 25) cl3dhiP) (vZ (10 ^ 25) cl3dhiQ) (paff 123370055013616982737 100000000000000000001 100000000000000000001 (clHi3.take 38)) (2 ^ 240 * 100000000000000000001 ^ 37) 41 (10 ^ 19) (770 * 10 ^ 22) = true := by decide +kernel
theorem den_cl3dhi : (cl3dhiP.toList ++ cl3dhiQ.toList).all (fun q => (q * 10 ^ 25).den == 1) = true := by decide +kernel
theorem bnd_cl3dhi : vAbs cl3dhiP 12339e-4 ≤ 114e-2 ∧ vAbs cl3dhiQ 12339e-4 ≤ 126e-2 ∧ (lipB 24677e-4 (clHi3.take 38)).1 ≤ 183e-2 * (2 ^ 240 : ℤ) ∧ (lipB 24677e-4 (clHi3.take 38)).2 ≤ 41e-2 * (2 ^ 240 : ℤ) := by decide +kernel
theorem cert_cl4dlo : rcert 16 4 12337 12337 9999 (vZ (10 ^ 24) cl4dloP) (vZ (10 ^ 24) cl4dloQ) ((clLo4.drop 1).take 19) (2 ^ 190) 50 (10 ^ 19) (850 * 10 ^ 21) = true := by decide +kernel
theorem den_cl4dlo : (cl4dloP.toList ++ cl4dloQ.toList).all (fun q => (q * 10 ^ 24).den == 1) = true := by decide +kernel
theorem bnd_cl4dlo : vAbs cl4dloP 24677e-4 ≤ 321e-3 ∧ vAbs cl4dloQ 24677e-4 ≤ 106e-2 ∧ (lipB 24677e-4 ((clLo4.drop 1).take 19)).1 ≤ 308e-3 * (2 ^ 190 : ℤ) ∧ (lipB 24677e-4 ((clLo4.drop 1).take 19)).2 ≤ 71e-5 * (2 ^ 190 : ℤ) := by decide +kernel
theorem cert_cl4dhi : rcert 16 4 0 12337 9999 (vZ (10 ^ 25) cl4dhiP) (vZ (10 ^ 25) cl4dhiQ) (paff 123370055013616982737 100000000000000000001 100000000000000000001 (clHi4.take 38)) (2 ^ 240 * 100000000000000000001 ^ 37) 18 (10 ^ 18) (790 * 10 ^ 22) = true := by decide +kernel
theorem den_cl4dhi : (cl4dhiP.toList ++ cl4dhiQ.toList).all (fun q => (q * 10 ^ 25).den == 1) = true := by decide +kernel
theorem bnd_cl4dhi : vAbs cl4dhiP 12339e-4 ≤ 111e-2 ∧ vAbs cl4dhiQ 12339e-4 ≤ 124e-2 ∧ (lipB 24677e-4 (clHi4.take 38)).1 ≤ 12e-1 * (2 ^ 240 : ℤ) ∧ (lipB 24677e-4 (clHi4.take 38)).2 ≤ 13e-2 * (2 ^ 240 : ℤ) := by decide +kernel
theorem cert_cl5dlo : rcert 16 4 12337 12337 9999 (vZ (10 ^ 25) cl5dloP) (vZ (10 ^ 25) cl5dloQ) (clLo5.take 20) (2 ^ 190) 30 (10 ^ 18) (850 * 10 ^ 22) = true := by decide +kernel
theorem den_cl5dlo : (cl5dloP.toList ++ cl5dloQ.toList).all (fun q => (q * 10 ^ 25).den == 1) = true := by decide +kernel
theorem bnd_cl5dlo : vAbs cl5dloP 24677e-4 ≤ 314e-2 ∧ vAbs cl5dloQ 24677e-4 ≤ 103e-2 ∧ (lipB 24677e-4 (clLo5.take 20)).1 ≤ 306e-2 * (2 ^ 190 : ℤ) ∧ (lipB 24677e-4 (clLo5.take 20)).2 ≤ 11e-1 * (2 ^ 190 : ℤ) := by decide +kernel
theorem cert_cl5dhi : rcert 16 4 0 12337 9999 (vZ (10 ^ 26) cl5dhiP) (vZ (10 ^ 26) cl5dhiQ) (paff 123370055013616982737 100000000000000000001 100000000000000000001 (clHi5.take 38)) (2 ^ 240 * 100000000000000000001 ^ 37) 45 (10 ^ 19) (850 * 10 ^ 23) = true := by decide +kernel
theorem den_cl5dhi : (cl5dhiP.toList ++ cl5dhiQ.toList).all (fun q => (q * 10 ^ 26).den == 1) = true := by decide +kernel
theorem bnd_cl5dhi : vAbs cl5dhiP 12339e-4 ≤ 113e-2 ∧ vAbs cl5dhiQ 12339e-4 ≤ 116e-2 ∧ (lipB 24677e-4 (clHi5.take 38)).1 ≤ 227e-2 * (2 ^ 240 : ℤ) ∧ (lipB 24677e-4 (clHi5.take 38)).2 ≤ 6e-1 * (2 ^ 240 : ℤ) := by decide +kernel
theorem cert_cl6dlo : rcert 16 4 12337 12337 9999 (vZ (10 ^ 26) cl6dloP) (vZ (10 ^ 26) cl6dloQ) (clLo6.take 20) (2 ^ 190) 26 (10 ^ 17) (850 * 10 ^ 23) = true := by decide +kernel
theorem den_cl6dlo : (cl6dloP.toList ++ cl6dloQ.toList).all (fun q => (q * 10 ^ 26).den == 1) = true := by decide +kernel
theorem bnd_cl6dlo : vAbs cl6dloP 24677e-4 ≤ 168e-2 ∧ vAbs cl6dloQ 24677e-4 ≤ 102e-2 ∧ (lipB 24677e-4 (clLo6.take 20)).1 ≤ 165e-2 * (2 ^ 190 : ℤ) ∧ (lipB 24677e-4 (clLo6.take 20)).2 ≤ 3e-1 * (2 ^ 190 : ℤ) := by decide +kernel
theorem cert_cl6dhi : rcert 16 4 0 12337 9999 (vZ (10 ^ 26) cl6dhiP) (vZ (10 ^ 26) cl6dhiQ) (paff 123370055013616982737 100000000000000000001 100000000000000000001 (clHi6.take 38)) (2 ^ 240 * 100000000000000000001 ^ 37) 14 (10 ^ 18) (850 * 10 ^ 23) = true := by decide +kernel
theorem den_cl6dhi : (cl6dhiP.toList ++ cl6dhiQ.toList).all (fun q => (q * 10 ^ 26).den == 1) = true := by decide +kernel
theorem bnd_cl6dhi : vAbs cl6dhiP 12339e-4 ≤ 106e-2 ∧ vAbs cl6dhiQ 12339e-4 ≤ 109e-2 ∧ (lipB 24677e-4 (clHi6.take 38)).1 ≤ 138e-2 * (2 ^ 240 : ℤ) ∧ (lipB 24677e-4 (clHi6.take 38)).2 ≤ 18e-2 * (2 ^ 240 : ℤ) := by decide +kernel

end Polylog
