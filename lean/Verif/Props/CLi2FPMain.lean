import Verif.Props.CLi2FPBr

/-!
# Complex dilogarithm in floating point: the five branches put together
-/

namespace Polylog
set_option linter.style.longLine false
open Complex

local notation:max "♯" q:max => (CXE.lit (q : ℚ))
local notation:max "÷" q:max => (DLit.mk (q : ℚ))

def eP (b0 : ℚ) (H : CXE true) : CXE true := cU +. (cU *. cU) *. (♯b0 +. cU *. H)
def e2 (b0 : ℚ) (H : CXE true) : CXE true := ♯1 *. eP b0 H +. ce0
def eI (p b0 : ℚ) (H : CXE true) : CXE true := ∸♯1 *. eP b0 H +. (CXE.addr (∸♯0.5 *. cL *. cL) (∸(♯p *. ♯p /. ÷6)))
def e3 (p b0 : ℚ) (H : CXE true) : CXE true := ∸♯1 *. eP b0 H +. (cL +. ♯p *. ♯p /. ÷6)
def e0 : CXE true := cU *. (♯1 +. ♯0.25 *. cU)

def boxA : Bx := ⟨bn 1.1, bn 45, 0⟩
def boxL2 : Bx := ⟨bn 1, bn 7, 1⟩
def boxQ : Bx := ⟨bn 7.2, bn 900, 0⟩
def boxS : Bx := ⟨bn 1, 0, 0⟩

section
variable {F : Type} [FOps F] {m : ℕ}
/-- the series -/
def serP (bf : Vector ℚ (m + 3)) (u : Cx F) : Cx F := u +. (u *. u) *. ((FOps.lit (bf[0]) : F) +. u *. (hornerC 1 (u *. u) bf))

theorem e2_ev (bf : Vector ℚ (m + 3)) (u l : Cx F) : (CXE.subst (ceHorner (cU *. cU) (tailV bf)) (e2 (bf[0]) c7)).ev (env2 u l) =
    (FOps.lit 1 : F) *. serP bf u +. Cx.ofReal (FOps.lit 0 : F) := by
  unfold serP; rw [hornerC_tail, hornerU2_ev (tailV bf) u l]; rfl
theorem e3_ev (p : ℚ) (bf : Vector ℚ (m + 3)) (u l : Cx F) : (CXE.subst (ceHorner (cU *. cU) (tailV bf)) (e3 p (bf[0]) c7)).ev (env2 u l) =
    ∸(FOps.lit 1 : F) *. serP bf u +. (l +. (FOps.lit p : F) *. (FOps.lit p : F) /. (FOps.lit 6 : F)) := by
  unfold serP; rw [hornerC_tail, hornerU2_ev (tailV bf) u l]; rfl
theorem eI_ev (p : ℚ) (bf : Vector ℚ (m + 3)) (u l : Cx F) : (CXE.subst (ceHorner (cU *. cU) (tailV bf)) (eI p (bf[0]) c7)).ev (env2 u l) =
    ∸(FOps.lit 1 : F) *. serP bf u +. (∸(FOps.lit 0.5 : F) *. l *. l +. ∸((FOps.lit p : F) *. (FOps.lit p : F) /. (FOps.lit 6 : F))) := by
  unfold serP; rw [hornerC_tail, hornerU2_ev (tailV bf) u l]; rfl
theorem e0_ev (u l : Cx F) : e0.ev (env2 u l) = u *. ((FOps.lit 1 : F) +. (FOps.lit 0.25 : F) *. u) := rfl
end

variable {φ : Fmt} {L : Lib} {m : ℕ}

structure Li2Cert (φ : Fmt) (p : ℚ) {m : ℕ} (bf : Vector ℚ (m + 3)) (K : ℕ) (E P : ℝ) : Prop where
  k2 : okBox (chk7 10 (envB boxA boxA) (cU *. cU) (tailV bf) (e2 (bf[0]) c7)) 100 K = true
  k3 : okBox (chk7 10 (envB boxA boxQ) (cU *. cU) (tailV bf) (e3 p (bf[0]) c7)) 100 (4 * K) = true
  kI : okBox (chk7 10 (envB boxA boxL2) (cU *. cU) (tailV bf) (eI p (bf[0]) c7)) 2 K = true
  k0 : okBox (e0.chk 10 (envB boxS boxS)) 100 K = true
  pi : |(((semF φ).rho p : ℚ) : ℝ) ^ 2 - Real.pi ^ 2| / 6 ≤ P
  ser : ∀ w : Cx (R (semF φ)), ‖w.toC‖ ≤ 1.1 → ‖(serP bf w).toC - w.toC * psum (bserC 1) w.toC‖ ≤ E

theorem boxA_holds {Λ : ℝ} {U : Cx (FP φ L)} {W : Cx (R (semF φ))} (hW : ‖W.toC‖ ≤ 1.1) (hU : CNear U W.toC (45 * uR φ)) : CHolds Λ U W.toC boxA := by
  have hu0 := uR_pos (φ := φ)
  have q1 := um_bn 1.1
  have q2 := um_bn 45
  push_cast at q1 q2
  refine ⟨?_, hU.mono ?_⟩
  · show _ ≤ um (bn 1.1) * Λ ^ (0:ℤ)
    rw [zpow_zero, mul_one]; linarith
  · show _ ≤ um (bn 45) * uR φ * Λ ^ (0:ℤ)
    rw [zpow_zero, mul_one]; gcongr

theorem ofR_pi6 (hφ : FmtB φ) (p : ℚ) : ofR ((FOps.lit p : R (semF φ)) *. (FOps.lit p : R (semF φ)) /. (FOps.lit 6 : R (semF φ))) = (((semF φ).rho p : ℚ) : ℝ) ^ 2 / 6 := by
  have hS := semF_lit hφ
  rw [ofR_div (by rw [ofR_lit, hS.six]; norm_num), ofR_mul, ofR_lit, ofR_lit, hS.six]; push_cast; ring

theorem pi6_err {q P : ℝ} (h : |q ^ 2 - Real.pi ^ 2| / 6 ≤ P) : ‖((q ^ 2 / 6 - Real.pi ^ 2 / 6 : ℝ) : ℂ)‖ ≤ P := by
  rw [Complex.norm_real, Real.norm_eq_abs, ← sub_div, abs_div, abs_of_pos (show (0:ℝ) < 6 by norm_num)]
  exact h

/-- certificate for the three final sums, as expressions: `x2` in the unit disc, `x3` (reflection) with variable 1 the product of the logarithms,
`xI` (inversion) with variable 1 the logarithm of `-z` -/
structure Li2CertE (φ : Fmt) (x2 x3 xI : CXE true) (K : ℕ) (E P : ℝ) : Prop where
  b2 : ∃ b, x2.chk 10 (envB boxA boxA) = some b ∧ um b.e ≤ (K : ℝ)
  b3 : ∃ b, x3.chk 10 (envB boxA boxQ) = some b ∧ um b.e ≤ ((4 * K : ℕ) : ℝ)
  bI : ∃ b, xI.chk 10 (envB boxA boxL2) = some b ∧ b.d ≤ 2 ∧ um b.e ≤ (K : ℝ)
  k0 : okBox (e0.chk 10 (envB boxS boxS)) 100 K = true
  E_nonneg : 0 ≤ E
  P_nonneg : 0 ≤ P
  m2 : ∀ w : Cx (R (semF φ)), ‖w.toC‖ ≤ 1.1 → ‖(x2.ev (env2 w w)).toC - w.toC * psum (bserC 1) w.toC‖ ≤ E
  m3 : ∀ w q : Cx (R (semF φ)), ‖w.toC‖ ≤ 1.1 → ‖(x3.ev (env2 w q)).toC - (-(w.toC * psum (bserC 1) w.toC) + q.toC + Real.pi ^ 2 / 6)‖ ≤ E + P
  mI : ∀ w q : Cx (R (semF φ)), ‖w.toC‖ ≤ 1.1 → ‖(xI.ev (env2 w q)).toC - (-(w.toC * psum (bserC 1) w.toC) - q.toC ^ 2 / 2 - Real.pi ^ 2 / 6)‖ ≤ E + P

variable {x2 x3 xI : CXE true} {K : ℕ} {E P : ℝ}

theorem li2_fin2 (hφ : FmtB φ) (hC : Li2CertE φ x2 x3 xI K E P) {U : Cx (FP φ L)} {w : ℂ} (hw : ‖w‖ ≤ 1.1) (hU : CNear U w (45 * uR φ)) :
    CNear (x2.ev (env2 U U)) (w * psum (bserC 1) w) (K * uR φ + E) := by
  have hu0 := uR_pos (φ := φ)
  obtain ⟨b, hb, hbe⟩ := hC.b2
  have e : (ofC (semF φ) w).toC = w := toC_ofC _
  have H0 : CHolds 1 U (ofC (semF φ) w).toC boxA := boxA_holds (by rw [e]; exact hw) (by rw [e]; exact hU)
  obtain ⟨-, -, hres⟩ := CXE.sound hφ le_rfl (by norm_num) (by norm_num) (env := env2 U U) (envR := env2 (ofC (semF φ) w) (ofC (semF φ) w)) (bx := envB boxA boxA)
    (fun i _ => by cases i with
      | zero => exact H0
      | succ i => exact H0) _ hb
  rw [one_zpow, mul_one] at hres
  have hm := hC.m2 (ofC (semF φ) w) (by rw [e]; exact hw)
  rw [e] at hm
  exact (CNear.shift hres (d := E) hm).mono (by gcongr)

theorem li2_fin3 (hφ : FmtB φ) (hC : Li2CertE φ x2 x3 xI K E P)
    {U Q : Cx (FP φ L)} {w q : ℂ} (hw : ‖w‖ ≤ 1.1) (hU : CNear U w (45 * uR φ)) (hq : ‖q‖ ≤ 7.2) (hQ : CNear Q q (900 * uR φ)) :
    CNear (x3.ev (env2 U Q)) (-(w * psum (bserC 1) w) + q + Real.pi ^ 2 / 6) (4 * K * uR φ + E + P) := by
  have hu0 := uR_pos (φ := φ)
  obtain ⟨b, hb, hbe⟩ := hC.b3
  have e : (ofC (semF φ) w).toC = w := toC_ofC _
  have e' : (ofC (semF φ) q).toC = q := toC_ofC _
  have H0 : CHolds 1 U (ofC (semF φ) w).toC boxA := boxA_holds (by rw [e]; exact hw) (by rw [e]; exact hU)
  have H1 : CHolds 1 Q (ofC (semF φ) q).toC boxQ := by
    rw [e']
    have q1 := um_bn 7.2
    have q2 := um_bn 900
    push_cast at q1 q2
    refine ⟨?_, hQ.mono ?_⟩
    · show _ ≤ um (bn 7.2) * 1 ^ (0:ℤ)
      rw [zpow_zero, mul_one]; linarith
    · show _ ≤ um (bn 900) * uR φ * 1 ^ (0:ℤ)
      rw [zpow_zero, mul_one]; gcongr
  obtain ⟨-, -, hres⟩ := CXE.sound hφ le_rfl (by norm_num) (by norm_num) (env := env2 U Q) (envR := env2 (ofC (semF φ) w) (ofC (semF φ) q)) (bx := envB boxA boxQ)
    (fun i _ => by cases i with
      | zero => exact H0
      | succ i => exact H1) _ hb
  rw [one_zpow, mul_one] at hres
  have hm := hC.m3 (ofC (semF φ) w) (ofC (semF φ) q) (by rw [e]; exact hw)
  rw [e, e'] at hm
  refine (CNear.shift hres (d := E + P) hm).mono ?_
  have : um b.e * uR φ ≤ 4 * K * uR φ := by push_cast at hbe; gcongr
  linarith

theorem li2_finI (hφ : FmtB φ) (hC : Li2CertE φ x2 x3 xI K E P) {Λ : ℝ} (hΛ1 : 1 ≤ Λ) (hΛ2 : Λ ≤ 2 ^ 10)
    {U l : Cx (FP φ L)} {w q : ℂ} (hw : ‖w‖ ≤ 1.1) (hU : CNear U w (45 * uR φ)) (hq : ‖q‖ ≤ Λ) (hQ : CNear l q (7 * uR φ * Λ)) :
    CNear (xI.ev (env2 U l)) (-(w * psum (bserC 1) w) - q ^ 2 / 2 - Real.pi ^ 2 / 6) ((K * uR φ + E + P) * Λ ^ 2) := by
  have hu0 := uR_pos (φ := φ)
  obtain ⟨b, hb, hbd, hbe⟩ := hC.bI
  have e : (ofC (semF φ) w).toC = w := toC_ofC _
  have e' : (ofC (semF φ) q).toC = q := toC_ofC _
  have H0 : CHolds Λ U (ofC (semF φ) w).toC boxA := boxA_holds (by rw [e]; exact hw) (by rw [e]; exact hU)
  have H1 : CHolds Λ l (ofC (semF φ) q).toC boxL2 := by
    rw [e']
    have q1 := um_bn 1
    have q2 := um_bn 7
    push_cast at q1 q2
    refine ⟨?_, hQ.mono ?_⟩
    · show _ ≤ um (bn 1) * Λ ^ (1:ℤ)
      rw [zpow_one]; nlinarith
    · show _ ≤ um (bn 7) * uR φ * Λ ^ (1:ℤ)
      rw [zpow_one]; gcongr
  obtain ⟨-, -, hres⟩ := CXE.sound hφ hΛ1 hΛ2 (by norm_num) (env := env2 U l) (envR := env2 (ofC (semF φ) w) (ofC (semF φ) q)) (bx := envB boxA boxL2)
    (fun i _ => by cases i with
      | zero => exact H0
      | succ i => exact H1) _ hb
  have hm := hC.mI (ofC (semF φ) w) (ofC (semF φ) q) (by rw [e]; exact hw)
  rw [e, e'] at hm
  have hE0 := hC.E_nonneg
  have hP0 := hC.P_nonneg
  have hL2 : 1 ≤ Λ ^ 2 := one_le_pow₀ hΛ1
  have hpow : Λ ^ b.d ≤ Λ ^ 2 := by
    have h1 : Λ ^ b.d ≤ Λ ^ (2 : ℤ) := zpow_mono_exp hΛ1 hbd
    exact_mod_cast h1
  refine CNear.mono (e := um b.e * uR φ * Λ ^ b.d + (E + P)) (CNear.shift hres (d := E + P) hm) ?_
  have : um b.e * uR φ * Λ ^ b.d ≤ K * uR φ * Λ ^ 2 := by gcongr
  nlinarith

/-- the final sums of the C++ functions -/
theorem Li2Cert.toE (hφ : FmtB φ) {p : ℚ} {bf : Vector ℚ (m + 3)} (hC : Li2Cert φ p bf K E P) :
    Li2CertE φ (CXE.subst (ceHorner (cU *. cU) (tailV bf)) (e2 (bf[0]) c7)) (CXE.subst (ceHorner (cU *. cU) (tailV bf)) (e3 p (bf[0]) c7))
      (CXE.subst (ceHorner (cU *. cU) (tailV bf)) (eI p (bf[0]) c7)) K E P where
  b2 := box7' hC.k2
  b3 := box7' hC.k3
  bI := box7 hC.kI
  k0 := hC.k0
  E_nonneg := le_trans (norm_nonneg _) (hC.ser (ofC _ 0) (by rw [toC_ofC, norm_zero]; norm_num))
  P_nonneg := le_trans (by positivity) hC.pi
  m2 w hw := by
    have hS := semF_lit hφ
    have hser := hC.ser w hw
    rw [e2_ev]
    refine le_trans (le_of_eq ?_) hser
    congr 1
    have : (Cx.ofReal (FOps.lit 0 : R (semF φ))).toC = 0 := by
      rw [toC_ofReal hS.zero, ofR_lit, hS.zero]; simp
    rw [toC_add, toC_rmul, ofR_lit, hS.one, this]; push_cast; ring
  m3 w q hw := by
    have hS := semF_lit hφ
    have hser := hC.ser w hw
    rw [e3_ev]
    have e1 : (∸(FOps.lit 1 : R (semF φ)) *. serP bf w +. (q +. (FOps.lit p : R (semF φ)) *. (FOps.lit p : R (semF φ)) /. (FOps.lit 6 : R (semF φ)))).toC
        - (-(w.toC * psum (bserC 1) w.toC) + q.toC + Real.pi ^ 2 / 6)
        = -((serP bf w).toC - w.toC * psum (bserC 1) w.toC) + (((((semF φ).rho p : ℚ) : ℝ) ^ 2 / 6 - Real.pi ^ 2 / 6 : ℝ) : ℂ) := by
      rw [toC_add, toC_rmul, toC_addr, ofR_neg, ofR_lit, hS.one, ofR_pi6 hφ]; push_cast; ring
    rw [e1]
    exact (norm_add_le _ _).trans (add_le_add (by rw [norm_neg]; exact hser) (pi6_err hC.pi))
  mI w q hw := by
    have hS := semF_lit hφ
    have e5 : (((semF φ).rho 0.5 : ℚ) : ℝ) = 1 / 2 := by rw [hS.half]; norm_num
    have hser := hC.ser w hw
    rw [eI_ev]
    have e1 : (∸(FOps.lit 1 : R (semF φ)) *. serP bf w +. (∸(FOps.lit 0.5 : R (semF φ)) *. q *. q +. ∸((FOps.lit p : R (semF φ)) *. (FOps.lit p : R (semF φ)) /. (FOps.lit 6 : R (semF φ))))).toC
          - (-(w.toC * psum (bserC 1) w.toC) - q.toC ^ 2 / 2 - Real.pi ^ 2 / 6)
          = -((serP bf w).toC - w.toC * psum (bserC 1) w.toC) + -(((((semF φ).rho p : ℚ) : ℝ) ^ 2 / 6 - Real.pi ^ 2 / 6 : ℝ) : ℂ) := by
      rw [toC_add, toC_rmul, toC_addr, ofR_neg, ofR_neg, toC_mul, toC_rmul, ofR_neg, ofR_lit, ofR_lit, hS.one, ofR_pi6 hφ, e5]; push_cast; ring
    rw [e1]
    exact (norm_add_le _ _).trans (add_le_add (by rw [norm_neg]; exact hser) (by rw [norm_neg]; exact pi6_err hC.pi))

theorem li2_fin0 (hφ : FmtB φ) (hC : Li2CertE φ x2 x3 xI K E P)
    {z : Cx (FP φ L)} {x y : ℚ} (vx : Val φ (ofF z.re) x) (vy : Val φ (ofF z.im) y) {ε : ℝ} (h1 : ‖cq x y‖ ≤ ε) (h2 : ε ≤ 1 / 100) :
    CNear (z *. ((FOps.lit 1 : FP φ L) +. (FOps.lit 0.25 : FP φ L) *. z)) (pLi 2 (cq x y)) (K * uR φ + ε ^ 3) := by
  have hu0 := uR_pos (φ := φ)
  have hS := semF_lit hφ
  have e25 : (((semF φ).rho 0.25 : ℚ) : ℝ) = 1 / 4 := by
    rw [hS.dy 0.25 1 2 (by norm_num) (by norm_num) (by norm_num)]; norm_num
  obtain ⟨b, hb, hbe⟩ := okBox_spec' hC.k0
  have e : (ofC (semF φ) (cq x y)).toC = cq x y := toC_ofC _
  have H0 : CHolds 1 z (ofC (semF φ) (cq x y)).toC boxS := by
    rw [e]
    have q1 := um_bn 1
    push_cast at q1
    refine ⟨?_, x, y, vx, vy, ?_⟩
    · show _ ≤ um (bn 1) * 1 ^ (0:ℤ)
      rw [zpow_zero, mul_one]; linarith
    · rw [sub_self, norm_zero]
      have := um_nonneg boxS.e
      rw [one_zpow]; positivity
  obtain ⟨-, -, hres⟩ := CXE.sound hφ le_rfl (by norm_num) (by norm_num) (env := env2 z z) (envR := env2 (ofC (semF φ) (cq x y)) (ofC (semF φ) (cq x y))) (bx := envB boxS boxS)
    (fun i _ => by cases i with
      | zero => exact H0
      | succ i => exact H0) _ hb
  rw [e0_ev, e0_ev, one_zpow, mul_one] at hres
  refine (CNear.shift hres (d := ε ^ 3) ?_).mono (by gcongr)
  have h3 := li2_small (z := cq x y) (h1.trans h2)
  have h4 : ‖cq x y‖ ^ 3 ≤ ε ^ 3 := pow_le_pow_left₀ (norm_nonneg _) h1 3
  refine le_trans (le_of_eq ?_) (h3.trans h4)
  congr 1
  rw [toC_mul, toC_radd, toC_rmul, ofR_lit, ofR_lit, hS.one, e25, e]; push_cast; norm_num

/-- `log(1 - 1/z)` as computed -/
theorem li2_inv_argW (hφ : FmtB φ) (hx : -φ.emin - φ.p + 1 ≤ φ.emax - 2) (hL : CxLib φ L) {x y : ℚ} {W : Cx (FP φ L)}
    (hW : ‖1 / cq x y‖ ≤ 1.01 → ∃ e f : ℚ, Val φ (ofF W.re) e ∧ Val φ (ofF W.im) f ∧ ‖cq e f - -(1 / cq x y)‖ ≤ 8 * uR φ * ‖1 / cq x y‖ + tauR) (h1 : 0.99999 ≤ ‖cq x y‖ ^ 2) (h2 : 2 * (x:ℝ) ≤ 1.00001 * ‖cq x y‖ ^ 2) :
    ‖Complex.log (1 - 1 / cq x y)‖ ≤ 1.1 ∧ CNear (∸(clog1p W)) (-Complex.log (1 - 1 / cq x y)) (45 * uR φ) := by
  have hu0 := uR_pos (φ := φ)
  have hu : uR φ ≤ 1e-6 := hφ.u_le.trans (by norm_num)
  have hτ := tau_le hφ
  obtain ⟨hre, hlo⟩ := region_inv (z := cq x y) h1 (by rw [cq_re]; exact h2)
  refine ⟨hlo, ?_⟩
  have hn : 0.999 ≤ ‖cq x y‖ := by nlinarith [norm_nonneg (cq x y)]
  have hin2 : ‖1 / cq x y‖ ≤ 1.01 := by
    rw [norm_div, norm_one, div_le_iff₀ (by linarith)]; linarith
  obtain ⟨e, f, ve, vf, hef⟩ := hW hin2
  have hdf : ‖(1 + cq e f) - (1 - 1 / cq x y)‖ ≤ 8.1 * uR φ := by
    rw [show (1 + cq e f) - (1 - 1 / cq x y) = cq e f - -(1 / cq x y) by ring]
    have : 8 * uR φ * ‖1 / cq x y‖ ≤ 8 * uR φ * 1.01 := by gcongr
    linarith
  have hre2 : 0.49 ≤ (1 + cq e f).re := by
    have := Complex.abs_re_le_norm ((1 + cq e f) - (1 - 1 / cq x y))
    rw [Complex.sub_re (1 + cq e f)] at this
    have := (abs_le.1 (this.trans hdf)).1
    linarith
  have hlip := log_lip (A := 1 + cq e f) (B := 1 - 1 / cq x y) (m := 0.49) (by norm_num) hre2 (by linarith)
  have hlip2 : ‖Complex.log (1 + cq e f) - Complex.log (1 - 1 / cq x y)‖ ≤ 17 * uR φ := by
    refine hlip.trans ?_
    rw [div_le_iff₀ (by norm_num)]; linarith
  have hne : 1 + cq e f ≠ 0 := by
    intro h
    rw [h, Complex.zero_re] at hre2
    norm_num at hre2
  have hlo2 : ‖Complex.log (1 + cq e f)‖ ≤ 1.11 := by
    have := norm_sub_norm_le (Complex.log (1 + cq e f)) (Complex.log (1 - 1 / cq x y))
    linarith
  have hcl := clog1p_near hφ hx hL (z := W) ve vf hne hlo2
  refine (CNear.neg (hcl.shift hlip2)).mono (by linarith)

theorem li2_inv_W {hφ : FmtB φ} (hL : CxLib φ L) {z : Cx (FP φ L)} {x y : ℚ} (vx : Val φ (ofF z.re) x) (vy : Val φ (ofF z.im) y) (hd : InDom x y) (hin2 : ‖1 / cq x y‖ ≤ 1.01) :
    ∃ e f : ℚ, Val φ (ofF ((∸(FOps.lit 1 : FP φ L)) /. z).re) e ∧ Val φ (ofF ((∸(FOps.lit 1 : FP φ L)) /. z).im) f ∧ ‖cq e f - -(1 / cq x y)‖ ≤ 8 * uR φ * ‖1 / cq x y‖ + tauR := by
  have hζ0 := hd.ne_zero
  have hm1 : cq (-1) 0 / cq x y = -(1 / cq x y) := by
    rw [show cq (-1) 0 = -1 by apply Complex.ext <;> simp [cq]]; ring
  have hemax : (8:ℝ) ≤ 2 ^ (φ.emax - 2) := by
    have : (2:ℝ) ^ (3:ℤ) ≤ 2 ^ (φ.emax - 2) := zpow_le_zpow_right₀ (by norm_num) (by have := hφ.hmax; omega)
    exact le_trans (by norm_num) this
  obtain ⟨e, f, ve, vf, hef⟩ := hL.cdiv _ _ _ _ (-1) 0 x y (val_oneB hφ).neg (val_zeroB hφ) vx vy hζ0
    ((show ‖cq (-1) 0‖ ≤ 8 by rw [show cq (-1) 0 = -1 by apply Complex.ext <;> simp [cq]]; norm_num).trans big900)
    (Or.inl ⟨le_trans (zpow_le_zpow_right₀ (by norm_num) (by norm_num)) hd.norm_ge, hd.norm_le.trans (zpow_le_zpow_right₀ (by norm_num) (by norm_num))⟩)
    (by rw [hm1, norm_neg]; exact le_trans (le_trans hin2 (by norm_num)) hemax)
  rw [hm1, norm_neg] at hef
  exact ⟨e, f, ve, vf, hef⟩

theorem li2_inv_W' {hφ : FmtB φ} (hL : CxLib φ L) {z : Cx (FP φ L)} {x y : ℚ} (vx : Val φ (ofF z.re) x) (vy : Val φ (ofF z.im) y) (hd : InDom x y) (hin2 : ‖1 / cq x y‖ ≤ 1.01) :
    ∃ e f : ℚ, Val φ (ofF (∸((FOps.lit 1 : FP φ L) /. z)).re) e ∧ Val φ (ofF (∸((FOps.lit 1 : FP φ L) /. z)).im) f ∧ ‖cq e f - -(1 / cq x y)‖ ≤ 8 * uR φ * ‖1 / cq x y‖ + tauR := by
  have hζ0 := hd.ne_zero
  have hm1 : cq 1 0 / cq x y = 1 / cq x y := by
    rw [show cq 1 0 = 1 by apply Complex.ext <;> simp [cq]]
  have hemax : (8:ℝ) ≤ 2 ^ (φ.emax - 2) := by
    have : (2:ℝ) ^ (3:ℤ) ≤ 2 ^ (φ.emax - 2) := zpow_le_zpow_right₀ (by norm_num) (by have := hφ.hmax; omega)
    exact le_trans (by norm_num) this
  obtain ⟨e, f, ve, vf, hef⟩ := hL.cdiv _ _ _ _ 1 0 x y (val_oneB hφ) (val_zeroB hφ) vx vy hζ0
    ((show ‖cq 1 0‖ ≤ 8 by rw [show cq 1 0 = 1 by apply Complex.ext <;> simp [cq]]; norm_num).trans big900)
    (Or.inl ⟨le_trans (zpow_le_zpow_right₀ (by norm_num) (by norm_num)) hd.norm_ge, hd.norm_le.trans (zpow_le_zpow_right₀ (by norm_num) (by norm_num))⟩)
    (by rw [hm1]; exact le_trans (le_trans hin2 (by norm_num)) hemax)
  rw [hm1] at hef
  refine ⟨-e, -f, ve.neg, vf.neg, ?_⟩
  rw [cq_neg, ← neg_sub', norm_neg]
  exact hef

/-- branches of the complex dilogarithms (proof device): `lI` is the logarithm of `1 - 1/z`, `ax` the value on the real axis -/
def li2Sh {F : Type} [FOps F] (lI ax : Cx F) (g2 : Cx F → Cx F) (g3 gI : Cx F → Cx F → Cx F) (z : Cx F) : Cx F :=
  if z.im ==. (FOps.lit 0 : F) then ax
  else if Cx.norm z <. (FOps.eps : F) then z *. ((FOps.lit 1 : F) +. (FOps.lit 0.25 : F) *. z)
  else if z.re <=. (FOps.lit 0.5 : F) then
    if Cx.norm z >. (FOps.lit 1 : F) then gI (∸lI) (xlog (∸z)) else g2 (∸(clog1p (∸z)))
  else if Cx.norm z <=. (FOps.lit 2 : F) *. z.re then g3 (∸(xlog z)) (∸(xlog z) *. clog1p (∸z))
  else gI (∸lI) (xlog (∸z))

/-- the complex dilogarithms with the branches as expressions, in floating point -/
theorem cLi2E_fp (hφ : FmtB φ) (hx : -φ.emin - φ.p + 1 ≤ φ.emax - 2) (hL : CxLib φ L) (hC : Li2CertE φ x2 x3 xI K E P)
    {z : Cx (FP φ L)} {x y : ℚ} (vx : Val φ (ofF z.re) x) (vy : Val φ (ofF z.im) y) (hd : InDom x y) (lI ax : Cx (FP φ L)) {g2 : Cx (FP φ L) → Cx (FP φ L)} {g3 gI : Cx (FP φ L) → Cx (FP φ L) → Cx (FP φ L)}
    (h2 : ∀ u, g2 u = x2.ev (env2 u u)) (h3 : ∀ u l, g3 u l = x3.ev (env2 u l)) (hI : ∀ u l, gI u l = xI.ev (env2 u l))
    (hlI : 0.99999 ≤ ‖cq x y‖ ^ 2 → 2 * (x:ℝ) ≤ 1.00001 * ‖cq x y‖ ^ 2 →
      ‖Complex.log (1 - 1 / cq x y)‖ ≤ 1.1 ∧ CNear (∸lI) (-Complex.log (1 - 1 / cq x y)) (45 * uR φ)) :
    CNear (li2Sh lI ax g2 g3 gI z) (pLi 2 (cq x y))
      ((K * uR φ + E + P + 3 * uR φ) * max 1 ‖Complex.log (-cq x y)‖ ^ 2) := by
  have hu0 := uR_pos (φ := φ)
  have hu : uR φ ≤ 1e-12 := hφ.u_le.trans (by norm_num)
  have hζ0 := hd.ne_zero
  have hζn : 0 < ‖cq x y‖ := norm_pos_iff.2 hζ0
  have him : (cq x y).im ≠ 0 := by rw [cq_im]; exact_mod_cast hd.y_ne
  have hzc : cq x y ∈ cutPlane := by rw [mem_cutPlane]; right; exact him
  have hzt : cq x y ∈ twoCut := by rw [mem_twoCut]; right; exact him
  have hzn : cq x y ∈ negPlane := by rw [mem_negPlane]; right; exact him
  obtain ⟨t, vt, ht⟩ := norm_test hφ vx vy hd
  obtain ⟨t2, vt2, ht2⟩ := two_mul_val hφ vx hd.x_le
  have hτ := tau_le hφ
  have hM1 : 1 ≤ max 1 ‖Complex.log (-cq x y)‖ ^ 2 := one_le_pow₀ (le_max_left _ _)
  have hE0 := hC.E_nonneg
  have hP0 := hC.P_nonneg
  have hpi := Real.pi_gt_d2
  set M := max 1 ‖Complex.log (-cq x y)‖ ^ 2 with hM
  have hfin : ∀ {v : Cx (FP φ L)} {c : ℝ}, CNear v (pLi 2 (cq x y)) c → c ≤ K * uR φ + E + P + 3 * uR φ → CNear v (pLi 2 (cq x y)) ((K * uR φ + E + P + 3 * uR φ) * M) := by
    intro v c h1 h2
    refine h1.mono (h2.trans ?_)
    have : 0 ≤ K * uR φ + E + P + 3 * uR φ := by positivity
    nlinarith
  have hNS : 0 < ‖cq x y‖ ^ 2 := by positivity
  set N2 := ‖cq x y‖ ^ 2 with hN2
  have htb := abs_le.1 ht
  have vhalf : Val φ (ofF (FOps.lit 0.5 : FP φ L)) (1 / 2) := by
    have := near_dy hφ.a (q := 0.5) 1 1 (by norm_num) (by norm_num) (by norm_num)
    rw [show (1 / 2 : ℚ) = 0.5 by norm_num]
    exact this
  have veps : Val φ (ofF (FOps.eps : FP φ L)) (2 ^ (1 - (φ.p : ℤ))) := by
    have hp := hφ.hp
    have hq := hφ.hq
    have hmin := hφ.hmin
    have hmax := hφ.hmax
    exact ⟨false, _, rfl, rfl, repr_two_pow (by omega), zpow_lt_zpow_right₀ (by norm_num) (by omega)⟩
  have ci : (z.im ==. (FOps.lit 0 : FP φ L)) = false := im_ne_F hφ vy hd.y_ne
  have c0 : (Cx.norm z <. (FOps.eps : FP φ L)) = decide (t < 2 ^ (1 - (φ.p : ℤ))) := by
    rw [lt_F, vt.lt veps]
  have c1 : (z.re <=. (FOps.lit 0.5 : FP φ L)) = decide (x ≤ 1 / 2) := by
    rw [le_F, vx.le vhalf]
  have c2 : (Cx.norm z >. (FOps.lit 1 : FP φ L)) = decide (1 < t) := by
    show ((FOps.lit 1 : FP φ L) <. Cx.norm z) = _
    rw [lt_F, ofF_lit, (val_oneB hφ).lt vt]
  have c3 : (Cx.norm z <=. (FOps.lit 2 : FP φ L) *. z.re) = decide (t ≤ t2) := by
    rw [le_F, vt.le vt2]
  -- inversion
  have hinv : 0.99999 ≤ N2 → 2 * (x:ℝ) ≤ 1.00001 * N2 →
      CNear (xI.ev (env2 (∸lI) (xlog (∸z))))
        (pLi 2 (cq x y)) ((K * uR φ + E + P + 3 * uR φ) * M) := by
    intro h1 h2
    obtain ⟨hlo, hU⟩ := hlI h1 h2
    have hlz := xlog_near hφ hL (z := ∸z) vx.neg vy.neg (by rw [cq_neg, norm_neg]; exact (zpow_le_zpow_right₀ (by norm_num) (by norm_num)).trans hd.norm_ge)
      (by rw [cq_neg, norm_neg]; exact hd.norm_le.trans (zpow_le_zpow_right₀ (by norm_num) (by norm_num))) (Or.inl (neg_ne_zero.2 hd.y_ne))
    rw [cq_neg] at hlz
    have hΛ1 : 1 ≤ max 1 ‖Complex.log (-cq x y)‖ := le_max_left _ _
    have hq := le_max_right 1 ‖Complex.log (-cq x y)‖
    have hΛ2 : max 1 ‖Complex.log (-cq x y)‖ ≤ 2 ^ 10 := by
      refine max_le (by norm_num) ?_
      have h3 := norm_log_le (-cq x y)
      have h4 := hd.re_log
      rw [Complex.log_re] at h4
      rw [norm_neg] at h3
      norm_num; linarith
    have h7 := li2_finI hφ hC hΛ1 hΛ2 (by rw [norm_neg]; exact hlo) hU hq (hlz.mono (by nlinarith))
    have hic : 1 / cq x y ∈ cutPlane := by rw [one_div]; exact negPlane_cut (negPlane_inv hzn)
    have hb := pLi_bser_log 1 hic (by linarith)
    have hI := pLi_inversion_neg 2 (cq x y) hzn
    rw [appell_two, ← one_div] at hI
    refine (h7.congr (v := pLi 2 (cq x y)) ?_).mono ?_
    · rw [← hb]; linear_combination -hI
    · rw [← hM]; nlinarith
  unfold li2Sh
  simp only [h2, h3, hI]
  rw [ci, if_neg (by simp), c0, c1, c2, c3]
  by_cases hs : t < 2 ^ (1 - (φ.p : ℤ))
  · rw [if_pos (by simpa using hs)]
    have hs' : (t:ℝ) < 2 * uR φ := by
      have := (Rat.cast_lt (K := ℝ)).2 hs
      rw [Rat.cast_zpow, Rat.cast_ofNat, zpow_sub₀ (by norm_num), zpow_one, div_eq_mul_inv, ← zpow_neg] at this
      exact this
    have hN : N2 ≤ 2.1 * uR φ := by nlinarith
    have hsm : ‖cq x y‖ ≤ 1 / 100 := by
      by_contra hc
      push Not at hc
      have : (1/100:ℝ) ^ 2 ≤ ‖cq x y‖ ^ 2 := pow_le_pow_left₀ (by norm_num) hc.le 2
      rw [← hN2] at this
      norm_num at this; linarith
    have h := li2_fin0 hφ hC vx vy le_rfl hsm
    refine hfin h ?_
    have : ‖cq x y‖ ^ 3 = N2 * ‖cq x y‖ := by rw [hN2]; ring
    have h5 : N2 * ‖cq x y‖ ≤ 2.1 * uR φ * (1 / 100) := by gcongr
    linarith
  rw [if_neg (by simpa using hs)]
  by_cases hxh : x ≤ 1 / 2
  · rw [if_pos (by simpa using hxh)]
    have hxh' : (x:ℝ) ≤ 1 / 2 := by have := (Rat.cast_le (K := ℝ)).2 hxh; push_cast at this; exact this
    by_cases ht1 : 1 < t
    · rw [if_pos (by simpa using ht1)]
      have ht1' : (1:ℝ) < t := by exact_mod_cast ht1
      have hN : 0.999999 ≤ N2 := by nlinarith
      exact hinv (by linarith) (by linarith)
    · rw [if_neg (by simpa using ht1)]
      have ht1' : (t:ℝ) ≤ 1 := by exact_mod_cast not_lt.1 ht1
      have hN : N2 ≤ 1.00001 := by nlinarith
      have hlo := region_one_sub (z := cq x y) (by rw [cq_re]; exact hxh') hN
      have h1m : 1 + cq (-x) (-y) = 1 - cq x y := by rw [cq_neg]; ring
      have hcl := clog1p_near hφ hx hL (z := ∸z) vx.neg vy.neg (by rw [h1m]; exact slitPlane_ne_zero hzc) (by rw [h1m]; linarith)
      rw [h1m] at hcl
      have h := li2_fin2 hφ hC (by rw [norm_neg]; exact hlo) (hcl.neg.mono (by linarith))
      have hb := pLi_bser_log 1 hzc (by linarith)
      exact hfin (h.congr hb.symm) (by linarith)
  rw [if_neg (by simpa using hxh)]
  push Not at hxh
  have hxh' := half_lt_cast hxh
  rw [abs_of_pos (by linarith : (0:ℝ) < x)] at ht2
  have ht2b := abs_le.1 ht2
  by_cases htt : t ≤ t2
  · rw [if_pos (by simpa using htt)]
    have htt' : (t:ℝ) ≤ t2 := by exact_mod_cast htt
    have hN : N2 ≤ 1.00001 * (2 * x) := by nlinarith
    obtain ⟨r1, r2, r3⟩ := region_log (z := cq x y) (by rw [cq_re]; exact hxh'.le) (by rw [cq_re]; exact hN)
    rw [cq_re] at r1
    obtain ⟨k1, k2, k3⟩ := li2_prod hφ hL vx vy hd hxh r1 r2 r3
    have h := li2_fin3 hφ hC (by rw [norm_neg]; exact r3) (k2.mono (by linarith)) k1 k3
    have h1c : 1 - cq x y ∈ cutPlane := by rw [mem_cutPlane]; right; simpa using him
    have hb := pLi_bser_log 1 h1c (by rw [sub_sub_cancel]; linarith)
    rw [sub_sub_cancel] at hb
    have hR := pLi_two_refl hzt
    -- here `|log(-z)| ≥ π - 1.1`
    have hM4 : 4 ≤ M := by
      obtain ⟨s, hs, hst, -⟩ := hd.strip
      have h5 := log_neg_exp_strip hs hst
      rw [Complex.exp_log hζ0] at h5
      have h6 : 2 ≤ ‖Complex.log (-cq x y)‖ := by
        have h7 := norm_sub_norm_le ((s:ℂ) * Real.pi * I) (Complex.log (cq x y))
        have h8 : ‖(s:ℂ) * Real.pi * I‖ = Real.pi := by
          rw [norm_mul, Complex.norm_I, mul_one, norm_mul, Complex.norm_real, Complex.norm_real, Real.norm_eq_abs, Real.norm_eq_abs, abs_of_pos Real.pi_pos]
          rcases hs with rfl | rfl <;> norm_num
        rw [h8, norm_sub_rev, ← h5] at h7
        linarith
      have h9 : 2 ≤ max 1 ‖Complex.log (-cq x y)‖ := h6.trans (le_max_right _ _)
      have := pow_le_pow_left₀ (by norm_num) h9 2
      rw [← hM] at this
      norm_num at this; exact this
    refine (h.congr (v := pLi 2 (cq x y)) ?_).mono ?_
    · rw [← hb]; linear_combination -hR
    · have hKu : 0 ≤ (K:ℝ) * uR φ := by positivity
      nlinarith
  · rw [if_neg (by simpa using htt)]
    have htt' : (t2:ℝ) < t := by exact_mod_cast not_le.1 htt
    have hN : 2 * (x:ℝ) ≤ 1.000001 * N2 := by nlinarith
    exact hinv (by linarith) (by linarith)

theorem cLi2Gen_sh {F : Type} [FOps F] (PI : F) (Li2r : F → F) {m : ℕ} (bf : Vector ℚ (m + 3)) (z : Cx F) : cLi2Gen PI Li2r bf z =
    li2Sh (clog1p ((∸(FOps.lit 1 : F)) /. z)) (if z.re <=. (FOps.lit 1 : F) then ⟨(Li2r z.re), z.im⟩ else ⟨(Li2r z.re), ∸PI *. (xlog z.re)⟩)
      (fun u => (FOps.lit 1 : F) *. serP bf u +. Cx.ofReal (FOps.lit 0 : F)) (fun u l => ∸(FOps.lit 1 : F) *. serP bf u +. (l +. PI *. PI /. (FOps.lit 6 : F)))
      (fun u l => ∸(FOps.lit 1 : F) *. serP bf u +. (∸(FOps.lit 0.5 : F) *. l *. l -. PI *. PI /. (FOps.lit 6 : F))) z := rfl

/-- the complex dilogarithm with literals, in floating point -/
theorem cLi2_fp (hφ : FmtB φ) (hx : -φ.emin - φ.p + 1 ≤ φ.emax - 2) (hL : CxLib φ L) {p : ℚ} (Li2r : FP φ L → FP φ L) {bf : Vector ℚ (m + 3)} {K : ℕ} {E P : ℝ} (hC : Li2Cert φ p bf K E P)
    {z : Cx (FP φ L)} {x y : ℚ} (vx : Val φ (ofF z.re) x) (vy : Val φ (ofF z.im) y) (hd : InDom x y) :
    CNear (cLi2Gen (FOps.lit p : FP φ L) Li2r bf z) (pLi 2 (cq x y)) ((K * uR φ + E + P + 3 * uR φ) * max 1 ‖Complex.log (-cq x y)‖ ^ 2) := by
  rw [cLi2Gen_sh]
  exact cLi2E_fp hφ hx hL (Li2Cert.toE hφ hC) vx vy hd _ _ (fun u => (e2_ev bf u u).symm) (fun u l => (e3_ev p bf u l).symm) (fun u l => (eI_ev p bf u l).symm) (li2_inv_argW hφ hx hL (li2_inv_W (hφ := hφ) hL vx vy hd))

end Polylog
