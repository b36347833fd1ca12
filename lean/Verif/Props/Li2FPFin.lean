import Verif.Props.Li2FP
import Verif.Sem.FPFast

/-! # C35: the rational approximations of `Li2` in floating-point arithmetic, and the property -/

namespace Polylog

variable {φ : Fmt} {L : Lib}

theorem fmtOK32 : FmtOK binary32 80 := ⟨by decide, by decide, by decide, by decide⟩
theorem fmtOK64 : FmtOK binary64 120 := ⟨by decide, by decide, by decide, by decide⟩
theorem fmtOK80 : FmtOK x87ext 140 := ⟨by decide, by decide, by decide, by decide⟩
theorem fmtOK128 : FmtOK binary128 220 := ⟨by decide, by decide, by decide, by decide⟩

/-- the variables `y`, `r`, `s` -/
def env3 (y r s : FV) : ℕ → FV
  | 0 => y
  | 1 => r
  | _ => s
def renv3 (y s : ℝ) : ℕ → ℝ
  | 0 => y
  | 1 => 0
  | _ => s

/-- `boxes` on consecutive segments: `n` boxes of width `d` for each entry -/
def Segs (p K : ℕ) (env : List IB) (e : FE) (B : ℤ) : ℤ → List (ℤ × ℕ) → Prop
  | _, [] => True
  | a, (d, n) :: t => boxes p K d env e B a n = true ∧ 0 < d ∧ 0 < n ∧ Segs p K env e B (a + n * d) t
def segsEnd (a : ℤ) : List (ℤ × ℕ) → ℤ
  | [] => a
  | (d, n) :: t => segsEnd (a + n * d) t

theorem segs_sound {K : ℕ} (hφ : FmtOK φ K) {env : List IB} {e : FE} {B : ℤ}
    {fenv : ℕ → FV} {renv : ℕ → ℝ} (henv : ∀ i b, env[i]? = some b → Apx φ K (fenv (i + 1)) (renv (i + 1)) b)
    {y : ℚ} (hy : Val φ (fenv 0) y) (hr : renv 0 = y) (l : List (ℤ × ℕ)) (hl : l ≠ []) (a : ℤ) (h : Segs φ.p K env e B a l) (h0 : (a : ℝ) ≤ y * 2 ^ K)
    (h1 : (y : ℝ) * 2 ^ K ≤ ((segsEnd a l : ℤ) : ℝ)) : Near φ (e.fp φ fenv) (e.re renv) (B / 2 ^ K) := by
  induction l generalizing a with
  | nil => exact absurd rfl hl
  | cons x t ih =>
    obtain ⟨d, n⟩ := x
    obtain ⟨hb, hd, hn, ht⟩ := h
    by_cases hy1 : (y : ℝ) * 2 ^ K ≤ ((a + n * d : ℤ) : ℝ)
    · exact boxes_sound hφ hd hb henv hy hr h0 hy1 hn
    · push Not at hy1
      refine ih ?_ _ ht hy1.le h1
      rintro rfl
      exact absurd h1 (not_le.2 hy1)

/-- from the analysis of the summand `s*y*p/q` to `FinOK` -/
theorem finOK_of (hφ : FmtA φ) {K : ℕ} {l : List (ℤ × ℕ)} (hK : FmtOK φ K) (hl : l ≠ []) (hcov : 2 ^ K ≤ 2 * segsEnd 0 l)
    {fin : FP φ L → FP φ L → FP φ L → FP φ L} (e : FE) {B : ℤ} {ε E : ℝ}
    (hfp : ∀ y r s : FP φ L, ofF (fin y r s) = (ofF r).add φ (e.fp φ (env3 (ofF y) (ofF r) (ofF s))))
    (hb : Segs φ.p K [⟨0, 0, 0⟩, ⟨-2 ^ K, 2 ^ K, 0⟩] e B 0 l)
    (hre : ∀ y s : ℝ, 0 ≤ y → y ≤ 1 / 2 → (s = 1 ∨ s = -1) → |e.re (renv3 y s) - s * reLi 2 y| ≤ ε)
    (he1 : ∀ r r' s y : FV, e.fp φ (env3 y r s) = e.fp φ (env3 y r' s))
    (hE : (B / 2 ^ K + ε) * 1.0001 ≤ E) (hE1 : E ≤ 1) : FinOK φ L fin E := by
  intro y r s yq σ ρ er hy h0 h1 hs hσ hr hbound
  have hu := hφ.u_le
  have hu0 := uR_pos (φ := φ)
  have h0' : (0:ℝ) ≤ yq := by exact_mod_cast h0
  have h1' : (yq:ℝ) ≤ 1 / 2 := by have := (Rat.cast_le (K := ℝ)).2 h1; push_cast at this; exact this
  have hσ' : (σ:ℝ) = 1 ∨ (σ:ℝ) = -1 := by rcases hσ with rfl | rfl <;> simp
  have hpK : (0:ℝ) < 2 ^ K := by positivity
  have hT : Near φ (e.fp φ (env3 (ofF y) (ofF r) (ofF s))) (e.re (renv3 yq σ)) (B / 2 ^ K) := by
    rw [he1 (ofF r) (rndQ φ 0)]
    have hz : Apx φ K (rndQ φ 0) 0 ⟨0, 0, 0⟩ := by
      have := apx_exact (φ := φ) (K := K) (n := 0) (by have := vl_zero hφ; simpa using this)
      simpa using this
    refine segs_sound hK (fenv := env3 (ofF y) (rndQ φ 0) (ofF s)) (renv := renv3 yq σ) ?_ hy rfl l hl 0 hb (by push_cast; positivity) ?_
    · intro i b hi
      match i with
      | 0 => simp at hi; rw [← hi]; exact hz
      | 1 =>
        simp only [List.getElem?_cons_succ, List.getElem?_cons_zero, Option.some.injEq] at hi
        rw [← hi]
        refine ⟨σ, hs, ?_, ?_, by simp [renv3]⟩
        · rcases hσ' with h | h <;> simp only [renv3, h] <;> push_cast <;> linarith
        · rcases hσ' with h | h <;> simp only [renv3, h] <;> push_cast <;> linarith
      | i + 2 => simp at hi
    · have : (2:ℝ) ^ K ≤ 2 * ((segsEnd 0 l : ℤ) : ℝ) := by exact_mod_cast hcov
      nlinarith
  have hT2 := hT.shift (hre yq σ h0' h1' hσ')
  have hLi : |(σ:ℝ) * reLi 2 yq| ≤ 1 := by
    have hs1 : |(σ:ℝ)| = 1 := by rcases hσ' with h | h <;> rw [h] <;> simp
    rw [abs_mul, hs1, one_mul]
    have := reLi_lipschitz 0 (a := yq) (b := 0) (by rw [abs_of_nonneg h0']; exact h1') (by norm_num)
    rw [zero_add, reLi_zero_right, sub_zero, sub_zero, abs_of_nonneg h0'] at this
    linarith
  set t := B / 2 ^ K + ε with ht
  have ht0 : 0 ≤ t := hT2.nonneg
  have hrs : |ρ + σ * reLi 2 yq| ≤ |ρ| + 1 := (abs_add_le _ _).trans (by linarith)
  rw [hfp]
  have htE : t ≤ 1 := by linarith
  refine (hr.add hφ hT2 (by norm_num at hbound ⊢; linarith)).mono ?_
  have h3 : uR φ * (|ρ + σ * reLi 2 yq| + (er + t)) ≤ uR φ * (|ρ| + 1 + (er + t)) := by
    apply mul_le_mul_of_nonneg_left _ hu0.le; linarith
  have h4 : uR φ * t ≤ 0.0001 * t := by apply mul_le_mul_of_nonneg_right _ ht0; linarith
  linarith

/-! ## the summands as expressions -/

/-- the summand `s*y*p/q` of `Li2(float)` (Li2.cpp 71-75) -/
def li2fE : FE := (li2fFin (F := FE) (.var 0) (.var 1) (.var 2)).rhs
/-- the summand `s*y*p/q` of `Li2(double)` (Li2.cpp 148-155) -/
def li2dE : FE := (li2dFin (F := FE) (.var 0) (.var 1) (.var 2)).rhs
/-- the summand `s*y*p/q` of `Li2(long double)`, LDBL_DIG <= 18 (Li2.cpp 275-280) -/
def li2l18E : FE := (li2lFin (F := FE) li2l18P li2l18Q (.var 0) (.var 1) (.var 2)).rhs
/-- the summand `s*y*p/q` of `Li2(long double)`, LDBL_DIG > 18 (Li2.cpp 275-280) -/
def li2l36E : FE := (li2lFin (F := FE) li2l36P li2l36Q (.var 0) (.var 1) (.var 2)).rhs

theorem li2fE_box0 : boxesF 24 80 37778931862957161709569 [⟨0, 0, 0⟩, ⟨-2 ^ 80, 2 ^ 80, 0⟩] li2fE (8 * 2 ^ 56) 0 13 = true := by decide +kernel
theorem li2fE_box1 : boxesF 24 80 9444732965739290427393 [⟨0, 0, 0⟩, ⟨-2 ^ 80, 2 ^ 80, 0⟩] li2fE (8 * 2 ^ 56) 491126114218443102224397 10 = true := by decide +kernel
theorem li2fE_box2 : boxesF 24 80 4722366482869645213697 [⟨0, 0, 0⟩, ⟨-2 ^ 80, 2 ^ 80, 0⟩] li2fE (8 * 2 ^ 56) 585573443875836006498327 4 = true := by decide +kernel
theorem li2fE_box : Segs 24 80 [⟨0, 0, 0⟩, ⟨-2 ^ 80, 2 ^ 80, 0⟩] li2fE (8 * 2 ^ 56) 0 [(37778931862957161709569, 13), (9444732965739290427393, 10), (4722366482869645213697, 4)] := ⟨boxes_of_F li2fE_box0, by norm_num, by norm_num, boxes_of_F li2fE_box1, by norm_num, by norm_num, boxes_of_F li2fE_box2, by norm_num, by norm_num, trivial⟩
theorem li2dE_box0 : boxesF 53 120 41538374868278621028243970633760769 [⟨0, 0, 0⟩, ⟨-2 ^ 120, 2 ^ 120, 0⟩] li2dE (57 * 2 ^ 67) 0 13 = true := by decide +kernel
theorem li2dE_box1 : boxesF 53 120 10384593717069655257060992658440193 [⟨0, 0, 0⟩, ⟨-2 ^ 120, 2 ^ 120, 0⟩] li2dE (57 * 2 ^ 67) 539998873287622073367171618238889997 10 = true := by decide +kernel
theorem li2dE_box2 : boxesF 53 120 5192296858534827628530496329220097 [⟨0, 0, 0⟩, ⟨-2 ^ 120, 2 ^ 120, 0⟩] li2dE (57 * 2 ^ 67) 643844810458318625937781544823291927 4 = true := by decide +kernel
theorem li2dE_box : Segs 53 120 [⟨0, 0, 0⟩, ⟨-2 ^ 120, 2 ^ 120, 0⟩] li2dE (57 * 2 ^ 67) 0 [(41538374868278621028243970633760769, 13), (10384593717069655257060992658440193, 10), (5192296858534827628530496329220097, 4)] := ⟨boxes_of_F li2dE_box0, by norm_num, by norm_num, boxes_of_F li2dE_box1, by norm_num, by norm_num, boxes_of_F li2dE_box2, by norm_num, by norm_num, trivial⟩
theorem li2l18E_box0 : boxesF 64 140 43556142965880123323311949751266331066369 [⟨0, 0, 0⟩, ⟨-2 ^ 140, 2 ^ 140, 0⟩] li2l18E (42 * 2 ^ 76) 0 14 = true := by decide +kernel
theorem li2l18E_box1 : boxesF 64 140 10889035741470030830827987437816582766593 [⟨0, 0, 0⟩, ⟨-2 ^ 140, 2 ^ 140, 0⟩] li2l18E (42 * 2 ^ 76) 609786001522321726526367296517728634929166 7 = true := by decide +kernel
theorem li2l18E_box2 : boxesF 64 140 5444517870735015415413993718908291383297 [⟨0, 0, 0⟩, ⟨-2 ^ 140, 2 ^ 140, 0⟩] li2l18E (42 * 2 ^ 76) 686009251712611942342163208582444714295317 2 = true := by decide +kernel
theorem li2l18E_box : Segs 64 140 [⟨0, 0, 0⟩, ⟨-2 ^ 140, 2 ^ 140, 0⟩] li2l18E (42 * 2 ^ 76) 0 [(43556142965880123323311949751266331066369, 14), (10889035741470030830827987437816582766593, 7), (5444517870735015415413993718908291383297, 2)] := ⟨boxes_of_F li2l18E_box0, by norm_num, by norm_num, boxes_of_F li2l18E_box1, by norm_num, by norm_num, boxes_of_F li2l18E_box2, by norm_num, by norm_num, trivial⟩
theorem li2l36E_box0 : boxesF 113 220 52656145834278593348959013841835216159447547700274555627155488769 [⟨0, 0, 0⟩, ⟨-2 ^ 220, 2 ^ 220, 0⟩] li2l36E (950 * 2 ^ 107) 0 12 = true := by decide +kernel
theorem li2l36E_box1 : boxesF 113 220 13164036458569648337239753460458804039861886925068638906788872193 [⟨0, 0, 0⟩, ⟨-2 ^ 220, 2 ^ 220, 0⟩] li2l36E (950 * 2 ^ 107) 631873750011343120187508166102022593913370572403294667525865865228 9 = true := by decide +kernel
theorem li2l36E_box2 : boxesF 113 220 3291009114642412084309938365114701009965471731267159726697218049 [⟨0, 0, 0⟩, ⟨-2 ^ 220, 2 ^ 220, 0⟩] li2l36E (950 * 2 ^ 107) 750350078138469955222665947246151830272127554728912417686965714965 21 = true := by decide +kernel
theorem li2l36E_box3 : boxesF 113 220 1645504557321206042154969182557350504982735865633579863348609025 [⟨0, 0, 0⟩, ⟨-2 ^ 220, 2 ^ 220, 0⟩] li2l36E (950 * 2 ^ 107) 819461269545960608993174652913560551481402461085522771947607293994 14 = true := by decide +kernel
theorem li2l36E_box : Segs 113 220 [⟨0, 0, 0⟩, ⟨-2 ^ 220, 2 ^ 220, 0⟩] li2l36E (950 * 2 ^ 107) 0 [(52656145834278593348959013841835216159447547700274555627155488769, 12), (13164036458569648337239753460458804039861886925068638906788872193, 9), (3291009114642412084309938365114701009965471731267159726697218049, 21), (1645504557321206042154969182557350504982735865633579863348609025, 14)] := ⟨boxes_of_F li2l36E_box0, by norm_num, by norm_num, boxes_of_F li2l36E_box1, by norm_num, by norm_num, boxes_of_F li2l36E_box2, by norm_num, by norm_num, boxes_of_F li2l36E_box3, by norm_num, by norm_num, trivial⟩

end Polylog
