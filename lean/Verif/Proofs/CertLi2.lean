import Verif.Proofs.Approx
import Verif.Model.Li2

/-! # Certificates for the rational approximations of `Li2.cpp` on `[0, 1/2]` -/

namespace Polylog

/-- first `K` coefficients of `Li_n(x)/x`, times `M`, rounded down -/
def liL (n M K : ℕ) : List ℤ := (List.range K).map (liT n M)

theorem cert_li2f : rcert 12 5 1 1 4 (vZ (10^12) li2fP) (vZ (10^12) li2fQ) (liL 2 (2^40) 40) (2^40) 239 (10^9) (5*10^11) = true := by
  decide +kernel
theorem cert_li2d : rcert 30 6 1 1 4 (vZ (10^24) li2dP) (vZ (10^24) li2dQ) (liL 2 (2^80) 64) (2^80) 585 (10^19) (15*10^22) = true := by
  decide +kernel
theorem cert_li2l18 : rcert 30 6 0 1 4 (vZ (10^45) li2l18P) (vZ (10^45) li2l18Q) (paff 1 4 4 (liL 2 (2^90) 80)) (2^90*4^79)
    214 (10^22) (2*10^44) = true := by
  decide +kernel
theorem cert_li2l36 : rcert 50 7 0 1 4 (vZ (10^50) li2l36P) (vZ (10^50) li2l36Q) (paff 1 4 4 (liL 2 (2^140) 130)) (2^140*4^129)
    43 (10^37) (4*10^48) = true := by
  decide +kernel

theorem den_li2 : (li2fP.toList ++ li2fQ.toList).all (fun q => (q * 10^12).den == 1) = true ∧
   (li2dP.toList ++ li2dQ.toList).all (fun q => (q * 10^24).den == 1) = true ∧
   (li2l18P.toList ++ li2l18Q.toList).all (fun q => (q * 10^45).den == 1) = true ∧
   (li2l36P.toList ++ li2l36Q.toList).all (fun q => (q * 10^50).den == 1) = true := by
  decide +kernel
end Polylog
