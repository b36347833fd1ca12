import Verif.Proofs.ClApx
import Verif.Proofs.CertClD
import Verif.Proofs.CertClLo
import Verif.Proofs.CertClHi

/-! # Error bounds of the rational approximations of the Clausen functions (generated) -/

noncomputable section
namespace Polylog
variable {S : RealSem}

theorem M190 : ((2 ^ 190 : ℤ) : ℝ) = 2 ^ 190 := by norm_num
theorem M240 : ((2 ^ 240 : ℤ) : ℝ) = 2 ^ 240 := by norm_num

theorem pisq_approx {c : ℚ} {γ : ℝ} (h : |(c : ℝ) - (piQ : ℝ) ^ 2 / 8| ≤ γ) : |(c:ℝ) - Real.pi ^ 2 / 8| ≤ γ + 1e-48 := by
  have h1 := abs_le.mp pi_approx
  have h2 := pi_gt; have h3 := pi_lt
  have e : |(piQ:ℝ) ^ 2 / 8 - Real.pi ^ 2 / 8| ≤ 1e-48 := by
    have : (piQ:ℝ) ^ 2 / 8 - Real.pi ^ 2 / 8 = (piQ - Real.pi) * ((piQ + Real.pi) / 8) := by ring
    rw [this, abs_mul]
    have h4 : |(piQ:ℝ) - Real.pi| ≤ 1 / 10 ^ 49 := by rw [abs_sub_comm]; exact pi_approx
    have h5 : |((piQ:ℝ) + Real.pi) / 8| ≤ 1 := by
      have : (1:ℝ) / 10 ^ 49 ≤ 1 := by norm_num
      rw [abs_le]; constructor <;> linarith [h1.1, h1.2]
    calc _ ≤ (1 / 10 ^ 49 : ℝ) * 1 := mul_le_mul h4 h5 (abs_nonneg _) (by positivity)
      _ ≤ _ := by norm_num
  exact (abs_sub_le _ ((piQ:ℝ) ^ 2 / 8) _).trans (add_le_add h e)

theorem clcD : |((123370055013616982737 : ℤ) : ℝ) / (100000000000000000001 : ℤ) - Real.pi ^ 2 / 8| ≤ 2e-20 := by
  have h : |(123370055013616982737 / 100000000000000000001 : ℚ) - piQ ^ 2 / 8| ≤ 1e-20 := by decide +kernel
  have h' := (Rat.cast_le (K := ℝ)).mpr h
  push_cast at h'
  have := pisq_approx (c := 123370055013616982737 / 100000000000000000001) (γ := 1e-20) (by push_cast; exact h')
  push_cast at this ⊢
  exact this.trans (by norm_num)
theorem clcL : |((12337005501361698273543113749845188919143 : ℤ) : ℝ) / (10000000000000000000000000000000000000001 : ℤ) - Real.pi ^ 2 / 8| ≤ 2e-40 := by
  have h : |(12337005501361698273543113749845188919143 / 10000000000000000000000000000000000000001 : ℚ) - piQ ^ 2 / 8| ≤ 1e-40 := by decide +kernel
  have h' := (Rat.cast_le (K := ℝ)).mpr h
  push_cast at h'
  have := pisq_approx (c := 12337005501361698273543113749845188919143 / 10000000000000000000000000000000000000001) (γ := 1e-40) (by push_cast; exact h')
  push_cast at this ⊢
  exact this.trans (by norm_num)

/-- `cl2dloP / cl2dloQ` -/
theorem apx_cl2dlo {u : ℝ} (hS : S.Lit u) (hu : u ≤ 1e-4) {t f : ℝ}
    (h0 : 0 < t) (h1 : t ≤ 2.4676) (hs : HasSum (fun k => loC 0 1 (k + 1) * t ^ k) f) :
    0 < rv S cl2dloQ t ∧ |rv S cl2dloP t / rv S cl2dloQ t - f| ≤ 611e-21 + u * 1 := by
  have hτ := lo_taylor1 (m := 0) (p := 1) (by norm_num) (by simp [clLo2_len]) clLo2_chk 19 (by simp [clLo2_len]) (by norm_num) h0.le (by linarith) hs
  rw [← M190] at hτ
  obtain ⟨b1, b2, b3, b4⟩ := bnd_cl2dlo
  have := apx0 cert_cl2dlo den_cl2dlo (by norm_num) (by norm_num) (by norm_num) (by norm_num)
    b1 b2 b3 (δ' := 85e-2) (by norm_num) (by norm_num) (B := 1) (by norm_num) hS (by have := hS.u_nonneg; push_cast; linarith)
    (ε := 611e-21) h0 h1 hτ (by push_cast; norm_num)
  push_cast at this
  exact this

/-- `cl2dhiP / cl2dhiQ` -/
theorem apx_cl2dhi {u : ℝ} (hS : S.Lit u) (hu : u ≤ 1e-4) {z t f η : ℝ} (hz : |z| ≤ 1.2338) (hη : |z + Real.pi ^ 2 / 8 - t| ≤ η)
    (h0 : 0 ≤ t) (h1 : t ≤ 2.4676) (hs : HasSum (fun k => hiC 0 1 k * t ^ k) f) :
    0 < rv S cl2dhiQ z ∧ |rv S cl2dhiP z / rv S cl2dhiQ z - f| ≤ 592e-20 + u * 6 + 48e-3 * η ∧ |f| ≤ 805e-3 := by
  have hτ := hi_taylor (m := 0) (p := 1) (by norm_num) (by simp [clHi2_len]) clHi2_chk 38 (by simp [clHi2_len]) (by norm_num) h0 (by linarith) hs
  rw [← M240] at hτ
  obtain ⟨b1, b2, b3, b4⟩ := bnd_cl2dhi
  have := apxS (K := 37) cert_cl2dhi (by simp [clHi2_len]) (by norm_num) den_cl2dhi (by norm_num) (by norm_num) (by norm_num) (by norm_num)
    b1 b2 b3 b4 (δ' := 72e-2) (by norm_num) (by norm_num) (B := 6) (by norm_num) hS (by have := hS.u_nonneg; push_cast; linarith)
    (ε := 592e-20) hz clcD hη (by norm_num) h0 h1 hτ (by push_cast; norm_num)
  push_cast at this
  exact ⟨this.1, this.2.1, this.2.2.trans (by norm_num)⟩

/-- `cl2lloP / cl2lloQ` -/
theorem apx_cl2llo {u : ℝ} (hS : S.Lit u) (hu : u ≤ 1e-4) {z t f η : ℝ} (hz : |z| ≤ 1.2338) (hη : |z + Real.pi ^ 2 / 8 - t| ≤ η)
    (h0 : 0 ≤ t) (h1 : t ≤ 2.4676) (hs : HasSum (fun k => loC 0 1 (k + 1) * t ^ k) f) :
    0 < rv S cl2lloQ z ∧ |rv S cl2lloP z / rv S cl2lloQ z - f| ≤ 704e-44 + u * 1 + 74e-6 * η ∧ |f| ≤ 151e-4 := by
  have hτ := lo_taylor1 (m := 0) (p := 1) (by norm_num) (by simp [clLo2_len]) clLo2_chk 36 (by simp [clLo2_len]) (by norm_num) h0 (by linarith) hs
  rw [← M190] at hτ
  obtain ⟨b1, b2, b3, b4⟩ := bnd_cl2llo
  have := apxS (K := 35) cert_cl2llo (by simp [clLo2_len]) (by norm_num) den_cl2llo (by norm_num) (by norm_num) (by norm_num) (by norm_num)
    b1 b2 b3 b4 (δ' := 85e-2) (by norm_num) (by norm_num) (B := 1) (by norm_num) hS (by have := hS.u_nonneg; push_cast; linarith)
    (ε := 704e-44) hz clcL hη (by norm_num) h0 h1 hτ (by push_cast; norm_num)
  push_cast at this
  exact ⟨this.1, this.2.1, this.2.2.trans (by norm_num)⟩

/-- `cl2lhiP / cl2lhiQ` -/
theorem apx_cl2lhi {u : ℝ} (hS : S.Lit u) (hu : u ≤ 1e-4) {z t f η : ℝ} (hz : |z| ≤ 1.2338) (hη : |z + Real.pi ^ 2 / 8 - t| ≤ η)
    (h0 : 0 ≤ t) (h1 : t ≤ 2.4676) (hs : HasSum (fun k => hiC 0 1 k * t ^ k) f) :
    0 < rv S cl2lhiQ z ∧ |rv S cl2lhiP z / rv S cl2lhiQ z - f| ≤ 258e-42 + u * 16 + 48e-3 * η ∧ |f| ≤ 805e-3 := by
  have hτ := hi_taylor (m := 0) (p := 1) (by norm_num) (by simp [clHi2_len]) clHi2_chk 72 (by simp [clHi2_len]) (by norm_num) h0 (by linarith) hs
  rw [← M240] at hτ
  obtain ⟨b1, b2, b3, b4⟩ := bnd_cl2lhi
  have := apxS (K := 71) cert_cl2lhi (by simp [clHi2_len]) (by norm_num) den_cl2lhi (by norm_num) (by norm_num) (by norm_num) (by norm_num)
    b1 b2 b3 b4 (δ' := 42e-2) (by norm_num) (by norm_num) (B := 16) (by norm_num) hS (by have := hS.u_nonneg; push_cast; linarith)
    (ε := 258e-42) hz clcL hη (by norm_num) h0 h1 hτ (by push_cast; norm_num)
  push_cast at this
  exact ⟨this.1, this.2.1, this.2.2.trans (by norm_num)⟩

/-- `cl3dloP / cl3dloQ` -/
theorem apx_cl3dlo {u : ℝ} (hS : S.Lit u) (hu : u ≤ 1e-4) {t f : ℝ}
    (h0 : 0 < t) (h1 : t ≤ 2.4676) (hs : HasSum (fun k => loC 1 0 (k + 1) * t ^ k) f) :
    0 < rv S cl3dloQ t ∧ |rv S cl3dloP t / rv S cl3dloQ t - f| ≤ 151e-19 + u * 4 := by
  have hτ := lo_taylor1 (m := 1) (p := 0) (by norm_num) (by simp [clLo3_len]) clLo3_chk 19 (by simp [clLo3_len]) (by norm_num) h0.le (by linarith) hs
  rw [← M190] at hτ
  obtain ⟨b1, b2, b3, b4⟩ := bnd_cl3dlo
  have := apx0 cert_cl3dlo den_cl3dlo (by norm_num) (by norm_num) (by norm_num) (by norm_num)
    b1 b2 b3 (δ' := 85e-2) (by norm_num) (by norm_num) (B := 4) (by norm_num) hS (by have := hS.u_nonneg; push_cast; linarith)
    (ε := 151e-19) h0 h1 hτ (by push_cast; norm_num)
  push_cast at this
  exact this

/-- `cl3dhiP / cl3dhiQ` -/
theorem apx_cl3dhi {u : ℝ} (hS : S.Lit u) (hu : u ≤ 1e-4) {z t f η : ℝ} (hz : |z| ≤ 1.2338) (hη : |z + Real.pi ^ 2 / 8 - t| ≤ η)
    (h0 : 0 ≤ t) (h1 : t ≤ 2.4676) (hs : HasSum (fun k => hiC 1 0 k * t ^ k) f) :
    0 < rv S cl3dhiQ z ∧ |rv S cl3dhiP z / rv S cl3dhiQ z - f| ≤ 412e-20 + u * 9 + 41e-2 * η ∧ |f| ≤ 1831e-3 := by
  have hτ := hi_taylor (m := 1) (p := 0) (by norm_num) (by simp [clHi3_len]) clHi3_chk 38 (by simp [clHi3_len]) (by norm_num) h0 (by linarith) hs
  rw [← M240] at hτ
  obtain ⟨b1, b2, b3, b4⟩ := bnd_cl3dhi
  have := apxS (K := 37) cert_cl3dhi (by simp [clHi3_len]) (by norm_num) den_cl3dhi (by norm_num) (by norm_num) (by norm_num) (by norm_num)
    b1 b2 b3 b4 (δ' := 77e-2) (by norm_num) (by norm_num) (B := 9) (by norm_num) hS (by have := hS.u_nonneg; push_cast; linarith)
    (ε := 412e-20) hz clcD hη (by norm_num) h0 h1 hτ (by push_cast; norm_num)
  push_cast at this
  exact ⟨this.1, this.2.1, this.2.2.trans (by norm_num)⟩

/-- `cl3lloP / cl3lloQ` -/
theorem apx_cl3llo {u : ℝ} (hS : S.Lit u) (hu : u ≤ 1e-4) {z t f η : ℝ} (hz : |z| ≤ 1.2338) (hη : |z + Real.pi ^ 2 / 8 - t| ≤ η)
    (h0 : 0 ≤ t) (h1 : t ≤ 2.4676) (hs : HasSum (fun k => loC 1 0 (k + 1) * t ^ k) f) :
    0 < rv S cl3lloQ z ∧ |rv S cl3lloP z / rv S cl3lloQ z - f| ≤ 363e-43 + u * 4 + 36e-4 * η ∧ |f| ≤ 76e-2 := by
  have hτ := lo_taylor1 (m := 1) (p := 0) (by norm_num) (by simp [clLo3_len]) clLo3_chk 36 (by simp [clLo3_len]) (by norm_num) h0 (by linarith) hs
  rw [← M190] at hτ
  obtain ⟨b1, b2, b3, b4⟩ := bnd_cl3llo
  have := apxS (K := 35) cert_cl3llo (by simp [clLo3_len]) (by norm_num) den_cl3llo (by norm_num) (by norm_num) (by norm_num) (by norm_num)
    b1 b2 b3 b4 (δ' := 85e-2) (by norm_num) (by norm_num) (B := 4) (by norm_num) hS (by have := hS.u_nonneg; push_cast; linarith)
    (ε := 363e-43) hz clcL hη (by norm_num) h0 h1 hτ (by push_cast; norm_num)
  push_cast at this
  exact ⟨this.1, this.2.1, this.2.2.trans (by norm_num)⟩

/-- `cl3lhiP / cl3lhiQ` -/
theorem apx_cl3lhi {u : ℝ} (hS : S.Lit u) (hu : u ≤ 1e-4) {z t f η : ℝ} (hz : |z| ≤ 1.2338) (hη : |z + Real.pi ^ 2 / 8 - t| ≤ η)
    (h0 : 0 ≤ t) (h1 : t ≤ 2.4676) (hs : HasSum (fun k => hiC 1 0 k * t ^ k) f) :
    0 < rv S cl3lhiQ z ∧ |rv S cl3lhiP z / rv S cl3lhiQ z - f| ≤ 171e-28 + u * 1136 + 41e-2 * η ∧ |f| ≤ 1831e-3 := by
  have hτ := hi_taylor (m := 1) (p := 0) (by norm_num) (by simp [clHi3_len]) clHi3_chk 56 (by simp [clHi3_len]) (by norm_num) h0 (by linarith) hs
  rw [← M240] at hτ
  obtain ⟨b1, b2, b3, b4⟩ := bnd_cl3lhi
  have := apxS (K := 55) cert_cl3lhi (by simp [clHi3_len]) (by norm_num) den_cl3lhi (by norm_num) (by norm_num) (by norm_num) (by norm_num)
    b1 b2 b3 b4 (δ' := 66e-3) (by norm_num) (by norm_num) (B := 1136) (by norm_num) hS (by have := hS.u_nonneg; push_cast; linarith)
    (ε := 171e-28) hz clcL hη (by norm_num) h0 h1 hτ (by push_cast; norm_num)
  push_cast at this
  exact ⟨this.1, this.2.1, this.2.2.trans (by norm_num)⟩

/-- `cl4dloP / cl4dloQ` -/
theorem apx_cl4dlo {u : ℝ} (hS : S.Lit u) (hu : u ≤ 1e-4) {t f : ℝ}
    (h0 : 0 < t) (h1 : t ≤ 2.4676) (hs : HasSum (fun k => loC 1 1 (k + 1) * t ^ k) f) :
    0 < rv S cl4dloQ t ∧ |rv S cl4dloP t / rv S cl4dloQ t - f| ≤ 501e-20 + u * 2 := by
  have hτ := lo_taylor1 (m := 1) (p := 1) (by norm_num) (by simp [clLo4_len]) clLo4_chk 19 (by simp [clLo4_len]) (by norm_num) h0.le (by linarith) hs
  rw [← M190] at hτ
  obtain ⟨b1, b2, b3, b4⟩ := bnd_cl4dlo
  have := apx0 cert_cl4dlo den_cl4dlo (by norm_num) (by norm_num) (by norm_num) (by norm_num)
    b1 b2 b3 (δ' := 85e-2) (by norm_num) (by norm_num) (B := 2) (by norm_num) hS (by have := hS.u_nonneg; push_cast; linarith)
    (ε := 501e-20) h0 h1 hτ (by push_cast; norm_num)
  push_cast at this
  exact this

/-- `cl4dhiP / cl4dhiQ` -/
theorem apx_cl4dhi {u : ℝ} (hS : S.Lit u) (hu : u ≤ 1e-4) {z t f η : ℝ} (hz : |z| ≤ 1.2338) (hη : |z + Real.pi ^ 2 / 8 - t| ≤ η)
    (h0 : 0 ≤ t) (h1 : t ≤ 2.4676) (hs : HasSum (fun k => hiC 1 1 k * t ^ k) f) :
    0 < rv S cl4dhiQ z ∧ |rv S cl4dhiP z / rv S cl4dhiQ z - f| ≤ 181e-19 + u * 7 + 13e-2 * η ∧ |f| ≤ 1201e-3 := by
  have hτ := hi_taylor (m := 1) (p := 1) (by norm_num) (by simp [clHi4_len]) clHi4_chk 38 (by simp [clHi4_len]) (by norm_num) h0 (by linarith) hs
  rw [← M240] at hτ
  obtain ⟨b1, b2, b3, b4⟩ := bnd_cl4dhi
  have := apxS (K := 37) cert_cl4dhi (by simp [clHi4_len]) (by norm_num) den_cl4dhi (by norm_num) (by norm_num) (by norm_num) (by norm_num)
    b1 b2 b3 b4 (δ' := 79e-2) (by norm_num) (by norm_num) (B := 7) (by norm_num) hS (by have := hS.u_nonneg; push_cast; linarith)
    (ε := 181e-19) hz clcD hη (by norm_num) h0 h1 hτ (by push_cast; norm_num)
  push_cast at this
  exact ⟨this.1, this.2.1, this.2.2.trans (by norm_num)⟩

/-- `cl4lloP / cl4lloQ` -/
theorem apx_cl4llo {u : ℝ} (hS : S.Lit u) (hu : u ≤ 1e-4) {z t f η : ℝ} (hz : |z| ≤ 1.2338) (hη : |z + Real.pi ^ 2 / 8 - t| ≤ η)
    (h0 : 0 ≤ t) (h1 : t ≤ 2.4676) (hs : HasSum (fun k => loC 1 1 (k + 1) * t ^ k) f) :
    0 < rv S cl4lloQ z ∧ |rv S cl4lloP z / rv S cl4lloQ z - f| ≤ 197e-43 + u * 2 + 71e-5 * η ∧ |f| ≤ 309e-3 := by
  have hτ := lo_taylor1 (m := 1) (p := 1) (by norm_num) (by simp [clLo4_len]) clLo4_chk 36 (by simp [clLo4_len]) (by norm_num) h0 (by linarith) hs
  rw [← M190] at hτ
  obtain ⟨b1, b2, b3, b4⟩ := bnd_cl4llo
  have := apxS (K := 35) cert_cl4llo (by simp [clLo4_len]) (by norm_num) den_cl4llo (by norm_num) (by norm_num) (by norm_num) (by norm_num)
    b1 b2 b3 b4 (δ' := 85e-2) (by norm_num) (by norm_num) (B := 2) (by norm_num) hS (by have := hS.u_nonneg; push_cast; linarith)
    (ε := 197e-43) hz clcL hη (by norm_num) h0 h1 hτ (by push_cast; norm_num)
  push_cast at this
  exact ⟨this.1, this.2.1, this.2.2.trans (by norm_num)⟩

/-- `cl4lhiP / cl4lhiQ` -/
theorem apx_cl4lhi {u : ℝ} (hS : S.Lit u) (hu : u ≤ 1e-4) {z t f η : ℝ} (hz : |z| ≤ 1.2338) (hη : |z + Real.pi ^ 2 / 8 - t| ≤ η)
    (h0 : 0 ≤ t) (h1 : t ≤ 2.4676) (hs : HasSum (fun k => hiC 1 1 k * t ^ k) f) :
    0 < rv S cl4lhiQ z ∧ |rv S cl4lhiP z / rv S cl4lhiQ z - f| ≤ 171e-28 + u * 91 + 13e-2 * η ∧ |f| ≤ 1201e-3 := by
  have hτ := hi_taylor (m := 1) (p := 1) (by norm_num) (by simp [clHi4_len]) clHi4_chk 56 (by simp [clHi4_len]) (by norm_num) h0 (by linarith) hs
  rw [← M240] at hτ
  obtain ⟨b1, b2, b3, b4⟩ := bnd_cl4lhi
  have := apxS (K := 55) cert_cl4lhi (by simp [clHi4_len]) (by norm_num) den_cl4lhi (by norm_num) (by norm_num) (by norm_num) (by norm_num)
    b1 b2 b3 b4 (δ' := 169e-3) (by norm_num) (by norm_num) (B := 91) (by norm_num) hS (by have := hS.u_nonneg; push_cast; linarith)
    (ε := 171e-28) hz clcL hη (by norm_num) h0 h1 hτ (by push_cast; norm_num)
  push_cast at this
  exact ⟨this.1, this.2.1, this.2.2.trans (by norm_num)⟩

/-- `cl5dloP / cl5dloQ` -/
theorem apx_cl5dlo {u : ℝ} (hS : S.Lit u) (hu : u ≤ 1e-4) {t f : ℝ}
    (h0 : 0 < t) (h1 : t ≤ 2.4676) (hs : HasSum (fun k => loC 2 0 k * t ^ k) f) :
    0 < rv S cl5dloQ t ∧ |rv S cl5dloP t / rv S cl5dloQ t - f| ≤ 301e-19 + u * 15 := by
  have hτ := lo_taylor (m := 2) (p := 0) (by norm_num) (by simp [clLo5_len]) clLo5_chk 20 (by simp [clLo5_len]) (by norm_num) h0.le (by linarith) hs
  rw [← M190] at hτ
  obtain ⟨b1, b2, b3, b4⟩ := bnd_cl5dlo
  have := apx0 cert_cl5dlo den_cl5dlo (by norm_num) (by norm_num) (by norm_num) (by norm_num)
    b1 b2 b3 (δ' := 85e-2) (by norm_num) (by norm_num) (B := 15) (by norm_num) hS (by have := hS.u_nonneg; push_cast; linarith)
    (ε := 301e-19) h0 h1 hτ (by push_cast; norm_num)
  push_cast at this
  exact this

/-- `cl5dhiP / cl5dhiQ` -/
theorem apx_cl5dhi {u : ℝ} (hS : S.Lit u) (hu : u ≤ 1e-4) {z t f η : ℝ} (hz : |z| ≤ 1.2338) (hη : |z + Real.pi ^ 2 / 8 - t| ≤ η)
    (h0 : 0 ≤ t) (h1 : t ≤ 2.4676) (hs : HasSum (fun k => hiC 2 0 k * t ^ k) f) :
    0 < rv S cl5dhiQ z ∧ |rv S cl5dhiP z / rv S cl5dhiQ z - f| ≤ 453e-20 + u * 9 + 6e-1 * η ∧ |f| ≤ 2271e-3 := by
  have hτ := hi_taylor (m := 2) (p := 0) (by norm_num) (by simp [clHi5_len]) clHi5_chk 38 (by simp [clHi5_len]) (by norm_num) h0 (by linarith) hs
  rw [← M240] at hτ
  obtain ⟨b1, b2, b3, b4⟩ := bnd_cl5dhi
  have := apxS (K := 37) cert_cl5dhi (by simp [clHi5_len]) (by norm_num) den_cl5dhi (by norm_num) (by norm_num) (by norm_num) (by norm_num)
    b1 b2 b3 b4 (δ' := 85e-2) (by norm_num) (by norm_num) (B := 9) (by norm_num) hS (by have := hS.u_nonneg; push_cast; linarith)
    (ε := 453e-20) hz clcD hη (by norm_num) h0 h1 hτ (by push_cast; norm_num)
  push_cast at this
  exact ⟨this.1, this.2.1, this.2.2.trans (by norm_num)⟩

/-- `cl5lloP / cl5lloQ` -/
theorem apx_cl5llo {u : ℝ} (hS : S.Lit u) (hu : u ≤ 1e-4) {t f : ℝ}
    (h0 : 0 < t) (h1 : t ≤ 2.4676) (hs : HasSum (fun k => loC 2 0 k * t ^ k) f) :
    0 < rv S cl5lloQ t ∧ |rv S cl5lloP t / rv S cl5lloQ t - f| ≤ 24e-40 + u * 17 := by
  have hτ := lo_taylor (m := 2) (p := 0) (by norm_num) (by simp [clLo5_len]) clLo5_chk 37 (by simp [clLo5_len]) (by norm_num) h0.le (by linarith) hs
  rw [← M190] at hτ
  obtain ⟨b1, b2, b3, b4⟩ := bnd_cl5llo
  have := apx0 cert_cl5llo den_cl5llo (by norm_num) (by norm_num) (by norm_num) (by norm_num)
    b1 b2 b3 (δ' := 85e-2) (by norm_num) (by norm_num) (B := 17) (by norm_num) hS (by have := hS.u_nonneg; push_cast; linarith)
    (ε := 24e-40) h0 h1 hτ (by push_cast; norm_num)
  push_cast at this
  exact this

/-- `cl5lhiP / cl5lhiQ` -/
theorem apx_cl5lhi {u : ℝ} (hS : S.Lit u) (hu : u ≤ 1e-4) {z t f η : ℝ} (hz : |z| ≤ 1.2338) (hη : |z + Real.pi ^ 2 / 8 - t| ≤ η)
    (h0 : 0 ≤ t) (h1 : t ≤ 2.4676) (hs : HasSum (fun k => hiC 2 0 k * t ^ k) f) :
    0 < rv S cl5lhiQ z ∧ |rv S cl5lhiP z / rv S cl5lhiQ z - f| ≤ 311e-28 + u * 1524 + 6e-1 * η ∧ |f| ≤ 2271e-3 := by
  have hτ := hi_taylor (m := 2) (p := 0) (by norm_num) (by simp [clHi5_len]) clHi5_chk 56 (by simp [clHi5_len]) (by norm_num) h0 (by linarith) hs
  rw [← M240] at hτ
  obtain ⟨b1, b2, b3, b4⟩ := bnd_cl5lhi
  have := apxS (K := 55) cert_cl5lhi (by simp [clHi5_len]) (by norm_num) den_cl5lhi (by norm_num) (by norm_num) (by norm_num) (by norm_num)
    b1 b2 b3 b4 (δ' := 6e-2) (by norm_num) (by norm_num) (B := 1524) (by norm_num) hS (by have := hS.u_nonneg; push_cast; linarith)
    (ε := 311e-28) hz clcL hη (by norm_num) h0 h1 hτ (by push_cast; norm_num)
  push_cast at this
  exact ⟨this.1, this.2.1, this.2.2.trans (by norm_num)⟩

/-- `cl6dloP / cl6dloQ` -/
theorem apx_cl6dlo {u : ℝ} (hS : S.Lit u) (hu : u ≤ 1e-4) {t f : ℝ}
    (h0 : 0 < t) (h1 : t ≤ 2.4676) (hs : HasSum (fun k => loC 2 1 k * t ^ k) f) :
    0 < rv S cl6dloQ t ∧ |rv S cl6dloP t / rv S cl6dloQ t - f| ≤ 261e-18 + u * 8 := by
  have hτ := lo_taylor (m := 2) (p := 1) (by norm_num) (by simp [clLo6_len]) clLo6_chk 20 (by simp [clLo6_len]) (by norm_num) h0.le (by linarith) hs
  rw [← M190] at hτ
  obtain ⟨b1, b2, b3, b4⟩ := bnd_cl6dlo
  have := apx0 cert_cl6dlo den_cl6dlo (by norm_num) (by norm_num) (by norm_num) (by norm_num)
    b1 b2 b3 (δ' := 85e-2) (by norm_num) (by norm_num) (B := 8) (by norm_num) hS (by have := hS.u_nonneg; push_cast; linarith)
    (ε := 261e-18) h0 h1 hτ (by push_cast; norm_num)
  push_cast at this
  exact this

/-- `cl6dhiP / cl6dhiQ` -/
theorem apx_cl6dhi {u : ℝ} (hS : S.Lit u) (hu : u ≤ 1e-4) {z t f η : ℝ} (hz : |z| ≤ 1.2338) (hη : |z + Real.pi ^ 2 / 8 - t| ≤ η)
    (h0 : 0 ≤ t) (h1 : t ≤ 2.4676) (hs : HasSum (fun k => hiC 2 1 k * t ^ k) f) :
    0 < rv S cl6dhiQ z ∧ |rv S cl6dhiP z / rv S cl6dhiQ z - f| ≤ 141e-19 + u * 7 + 18e-2 * η ∧ |f| ≤ 1381e-3 := by
  have hτ := hi_taylor (m := 2) (p := 1) (by norm_num) (by simp [clHi6_len]) clHi6_chk 38 (by simp [clHi6_len]) (by norm_num) h0 (by linarith) hs
  rw [← M240] at hτ
  obtain ⟨b1, b2, b3, b4⟩ := bnd_cl6dhi
  have := apxS (K := 37) cert_cl6dhi (by simp [clHi6_len]) (by norm_num) den_cl6dhi (by norm_num) (by norm_num) (by norm_num) (by norm_num)
    b1 b2 b3 b4 (δ' := 85e-2) (by norm_num) (by norm_num) (B := 7) (by norm_num) hS (by have := hS.u_nonneg; push_cast; linarith)
    (ε := 141e-19) hz clcD hη (by norm_num) h0 h1 hτ (by push_cast; norm_num)
  push_cast at this
  exact ⟨this.1, this.2.1, this.2.2.trans (by norm_num)⟩

/-- `cl6lloP / cl6lloQ` -/
theorem apx_cl6llo {u : ℝ} (hS : S.Lit u) (hu : u ≤ 1e-4) {t f : ℝ}
    (h0 : 0 < t) (h1 : t ≤ 2.4676) (hs : HasSum (fun k => loC 2 1 k * t ^ k) f) :
    0 < rv S cl6lloQ t ∧ |rv S cl6lloP t / rv S cl6lloQ t - f| ≤ 9e-39 + u * 10 := by
  have hτ := lo_taylor (m := 2) (p := 1) (by norm_num) (by simp [clLo6_len]) clLo6_chk 37 (by simp [clLo6_len]) (by norm_num) h0.le (by linarith) hs
  rw [← M190] at hτ
  obtain ⟨b1, b2, b3, b4⟩ := bnd_cl6llo
  have := apx0 cert_cl6llo den_cl6llo (by norm_num) (by norm_num) (by norm_num) (by norm_num)
    b1 b2 b3 (δ' := 85e-2) (by norm_num) (by norm_num) (B := 10) (by norm_num) hS (by have := hS.u_nonneg; push_cast; linarith)
    (ε := 9e-39) h0 h1 hτ (by push_cast; norm_num)
  push_cast at this
  exact this

/-- `cl6lhiP / cl6lhiQ` -/
theorem apx_cl6lhi {u : ℝ} (hS : S.Lit u) (hu : u ≤ 1e-4) {z t f η : ℝ} (hz : |z| ≤ 1.2338) (hη : |z + Real.pi ^ 2 / 8 - t| ≤ η)
    (h0 : 0 ≤ t) (h1 : t ≤ 2.4676) (hs : HasSum (fun k => hiC 2 1 k * t ^ k) f) :
    0 < rv S cl6lhiQ z ∧ |rv S cl6lhiP z / rv S cl6lhiQ z - f| ≤ 191e-28 + u * 1410 + 18e-2 * η ∧ |f| ≤ 1381e-3 := by
  have hτ := hi_taylor (m := 2) (p := 1) (by norm_num) (by simp [clHi6_len]) clHi6_chk 56 (by simp [clHi6_len]) (by norm_num) h0 (by linarith) hs
  rw [← M240] at hτ
  obtain ⟨b1, b2, b3, b4⟩ := bnd_cl6lhi
  have := apxS (K := 55) cert_cl6lhi (by simp [clHi6_len]) (by norm_num) den_cl6lhi (by norm_num) (by norm_num) (by norm_num) (by norm_num)
    b1 b2 b3 b4 (δ' := 55e-3) (by norm_num) (by norm_num) (B := 1410) (by norm_num) hS (by have := hS.u_nonneg; push_cast; linarith)
    (ε := 191e-28) hz clcL hη (by norm_num) h0 h1 hτ (by push_cast; norm_num)
  push_cast at this
  exact ⟨this.1, this.2.1, this.2.2.trans (by norm_num)⟩

end Polylog
