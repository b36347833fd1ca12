import Verif.Proofs.EulerCert
import Verif.Model.Li3
import Verif.Model.Li4

/-! # Certificates of the rational approximations of `Li3.cpp`, `Li4.cpp` -/

namespace Polylog

/-- integer Euler coefficients as a list of integers -/
abbrev eulZ (n M K : ℕ) : List ℤ := (eulL n M K).map (fun m : ℕ => (m : ℤ))

theorem cert_li3pos : rcert 30 6 1 1 4 (vZ (10^24) li3posP) (vZ (10^24) li3posQ) (liL 3 (2^80) 64) (2^80) 117 (10^19) (19*10^22) = true := by
  decide +kernel
theorem cert_li3neg : rcert 30 8 1 1 4 (phom (vZ (10^24) li3negP)) (phom (vZ (10^24) li3negQ)) (eulZ 2 (2^80) 70) ((2^80 : ℕ) : ℤ) 371 (10^19) (8*10^22) = true := by
  decide +kernel
theorem cert_li3negQ : pcert 30 8 (-1) 1 2 (psub0 (10^24 : ℚ).num (vZ (10^24) li3negQ)) = true := by decide +kernel
theorem cert_li4half : rcert 30 6 1 1 4 (vZ (10^24) li4halfP) (vZ (10^24) li4halfQ) (liL 4 (2^80) 64) (2^80) 432 (10^19) (27*10^22) = true := by
  decide +kernel
theorem cert_li4neg : rcert 30 8 1 1 4 (phom (vZ (10^24) li4negP)) (phom (vZ (10^24) li4negQ)) (eulZ 3 (2^80) 70) ((2^80 : ℕ) : ℤ) 92 (10^19) (7*10^22) = true := by
  decide +kernel
theorem cert_li4negQ : pcert 30 8 (-1) 1 2 (psub0 (10^24 : ℚ).num (vZ (10^24) li4negQ)) = true := by decide +kernel
theorem cert_li4mid : rcert 35 7 6499 1501 9999 (vZ (10^30) li4midP) (vZ (10^30) li4midQ) (0 :: liL 4 (2^80) 190) (2^80) 350 (10^20) (24*10^27) = true := by
  decide +kernel

theorem den_li34 : (li3posP.toList ++ li3posQ.toList).all (fun q => (q * 10^24).den == 1) = true ∧
   (li3negP.toList ++ li3negQ.toList).all (fun q => (q * 10^24).den == 1) = true ∧
   (li4halfP.toList ++ li4halfQ.toList).all (fun q => (q * 10^24).den == 1) = true ∧
   (li4negP.toList ++ li4negQ.toList).all (fun q => (q * 10^24).den == 1) = true ∧
   (li4midP.toList ++ li4midQ.toList).all (fun q => (q * 10^30).den == 1) = true := by
  decide +kernel

end Polylog
