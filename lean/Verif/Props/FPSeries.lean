import Verif.Props.CostBound
import Verif.Props.FPRange
import Verif.Sem.FPVal

/-!
# C22: the loop of `Li_series` in binary64

The loop stops when adding a term does not change the sum.  The sequence of terms and partial sums is analysed with every
rounding, gradual underflow included.
-/

namespace Polylog
open MC

/-- value of a finite datum -/
def FV.toQ : FV → ℚ
  | .fin s a => sval s a
  | _ => 0

theorem Val.toQ {φ : Fmt} {x : FV} {q : ℚ} (h : Val φ x q) : x.toQ = q := by obtain ⟨s, a, rfl, rfl, _⟩ := h; rfl

theorem Val.pos {φ : Fmt} {x : FV} {q : ℚ} (h : Val φ x q) (hq : 0 < q) : x = .fin false q := by
  obtain ⟨s, a, rfl, rfl, hr, _⟩ := h
  have := repr_nonneg hr
  cases s
  · simp [sval]
  · simp [sval] at hq; linarith

/-! ### the sequence of sums and terms -/
section
variable {F : Type} [FOps F]

/-- `(sum, p)` after `m` iterations of the loop of `Li_series`, not looking at the stop tests -/
def serTr (n : Int) (z : Cx F) : ℕ → Cx F × Cx F
  | 0 => (⟨FOps.lit 0, FOps.lit 0⟩, z)
  | m + 1 =>
    let t := serTr n z m
    (t.1 +. t.2, t.2 *. (z *. powi ((FOps.ofInt ((m : Int) + 1) : F) /. ((FOps.lit 1 : F) +. (FOps.ofInt ((m : Int) + 1) : F))) n))

theorem seriesLoop_step (n : Int) (z : Cx F) (m fuel : ℕ) :
    liSeriesLoopC n z (fuel + 1) m (serTr n z m).1 (serTr n z m).2 = (tick >>= fun _ =>
      if !cisFinite (serTr n z (m + 1)).2 then pure (serTr n z (m + 1)).1
      else if Cx.bne (serTr n z (m + 1)).1 (serTr n z m).1 then
        liSeriesLoopC n z fuel ((m + 1 : ℕ) : Int) (serTr n z (m + 1)).1 (serTr n z (m + 1)).2
      else pure (serTr n z (m + 1)).1) := by
  rw [liSeriesLoopC]; push_cast; rfl

/-- if the stop test succeeds after iteration `m + 1`, at most `m + 1` iterations are executed -/
theorem cost_of_stop (n : Int) (z : Cx F) (m : ℕ) (h : Cx.bne (serTr n z (m + 1)).1 (serTr n z m).1 = false) :
    (liSeriesC n z).cost ≤ m + 1 := by
  have key : ∀ d i fuel : ℕ, i + d = m →
      (liSeriesLoopC n z fuel i (serTr n z i).1 (serTr n z i).2).cost ≤ d + 1 := by
    intro d
    induction d with
    | zero =>
      intro i fuel hi
      cases fuel with
      | zero => exact (cost_seriesLoop n z 0 _ _ _).trans (by omega)
      | succ f =>
        rw [seriesLoop_step]
        refine cost_tick (cost_ite (fun _ => cost_pure _ _) fun _ => ?_)
        rw [show i = m by omega, h]; exact cost_pure _ _
    | succ d ih =>
      intro i fuel hi
      cases fuel with
      | zero => exact (cost_seriesLoop n z 0 _ _ _).trans (by omega)
      | succ f =>
        rw [seriesLoop_step]
        exact cost_tick (cost_ite (fun _ => cost_pure _ _) fun _ => cost_ite (fun _ => ih (i + 1) f (by omega)) fun _ => cost_pure _ _)
  exact key m 0 _ (by omega)

theorem MC.cost_tick_eq {β : Type} (f : Unit → MC β) : (tick >>= f).cost = 1 + (f ()).cost := rfl

/-- if no stop test succeeds, all `2^63 - 3` iterations are executed -/
theorem cost_no_stop (n : Int) (z : Cx F) (h : ∀ m : ℕ, (m : Int) < i64max →
      cisFinite (serTr n z (m + 1)).2 = true ∧ Cx.bne (serTr n z (m + 1)).1 (serTr n z m).1 = true) :
    (liSeriesC n z).cost = 2 ^ 63 - 3 := by
  have key : ∀ fuel i : ℕ, ((i + fuel : ℕ) : Int) < i64max →
      (liSeriesLoopC n z fuel i (serTr n z i).1 (serTr n z i).2).cost = fuel + 1 := by
    intro fuel
    induction fuel with
    | zero =>
      intro i _
      rw [liSeriesLoopC, MC.cost_tick_eq]
      dsimp only
      split
      · rfl
      · split <;> rfl
    | succ f ih =>
      intro i hi
      rw [seriesLoop_step, MC.cost_tick_eq]
      obtain ⟨h1, h2⟩ := h i (by push_cast at hi ⊢; omega)
      rw [h1, h2]
      simp only [Bool.not_true, Bool.false_eq_true, if_false, if_true]
      rw [ih (i + 1) (by push_cast at hi ⊢; omega)]
      omega
  have hb : (i64max - 3).toNat + 1 = 2 ^ 63 - 3 := by decide
  rw [← hb]
  have hf : (((i64max - 3).toNat : ℕ) : Int) < i64max := by decide
  unfold liSeriesC
  generalize (i64max - 3).toNat = f at *
  exact key f 0 (by simpa using hf)

end

/-! ### binary64 -/
section
variable {L : Lib}

local notation "φ₀" => binary64

theorem b64_int {k : ℤ} (h0 : 0 ≤ k) (h1 : k ≤ 2 ^ 53) : Repr φ₀ k := by
  rcases h1.lt_or_eq with h | h
  · exact ⟨k.toNat, 0, by decide, by simp only [binary64]; omega, by rw [zpow_zero, mul_one]; exact_mod_cast (Int.toNat_of_nonneg h0).symm⟩
  · refine ⟨2 ^ 52, 1, by decide, by simp only [binary64]; norm_num, ?_⟩
    rw [h]; norm_num

theorem b64_lt {q : ℚ} (h : |q| ≤ 2 ^ 70) : |q| < 2 ^ (binary64).emax := by
  refine lt_of_le_of_lt h ?_
  show (2:ℚ) ^ 70 < 2 ^ (1024 : ℤ)
  rw [← zpow_natCast]
  exact zpow_lt_zpow_right₀ (by norm_num) (by norm_num)

theorem b64_repr_pow {e : ℤ} (h : -1074 ≤ e) : Repr φ₀ (2 ^ e) := repr_two_pow (φ := φ₀) h

theorem rq_one : rq φ₀ 1 = 1 := rq_repr (by simpa using b64_int (k := 1) (by norm_num) (by norm_num))

/-- the quotient `k/(1.0 + k)` is a value between 1/2 and 1, within `2^-51` of the exact quotient -/
theorem ratio_val (k : ℤ) (h1 : 1 ≤ k) (h2 : k ≤ 2 ^ 63) :
    ∃ a : ℚ, ofF ((FOps.ofInt k : FP φ₀ L) /. ((FOps.lit 1 : FP φ₀ L) +. (FOps.ofInt k : FP φ₀ L))) = .fin false a ∧
      Val φ₀ (.fin false a) a ∧ 1 / 2 ≤ a ∧ a ≤ 1 ∧ |a - (k:ℚ) / (k + 1)| ≤ 1 / 2 ^ 51 := by
  have hk : (1:ℚ) ≤ k := by exact_mod_cast h1
  have hk2 : (k:ℚ) ≤ 2 ^ 63 := by exact_mod_cast h2
  have r63 : Repr φ₀ (2 ^ (63:ℤ)) := b64_repr_pow (by norm_num)
  have r64 : Repr φ₀ (2 ^ (64:ℤ)) := b64_repr_pow (by norm_num)
  have u : (2:ℚ) ^ (-((binary64).p : ℤ)) = 1 / 2 ^ 53 := by show (2:ℚ) ^ (-(53:ℤ)) = _; norm_num
  have eta : (0:ℚ) < 2 ^ ((binary64).emin - 1) ∧ (2:ℚ) ^ ((binary64).emin - 1) ≤ 1 / 2 ^ 60 := by
    refine ⟨by positivity, ?_⟩
    have : (2:ℚ) ^ ((binary64).emin - 1) ≤ 2 ^ (-60 : ℤ) := zpow_le_zpow_right₀ (by norm_num) (by decide)
    norm_num at this ⊢; exact this
  -- ka = rq k
  have b1 : rq φ₀ k ≤ 2 ^ 63 := by
    have := abs_rq_le (q := (k:ℚ)) r63 (by rw [abs_of_pos (by linarith)]; exact_mod_cast hk2)
    rw [abs_of_nonneg (rq_nonneg (by linarith))] at this
    exact_mod_cast this
  have b0 : 1 ≤ rq φ₀ k := by
    have := rq_mono (φ := φ₀) hk
    rwa [rq_one] at this
  have e1 : |rq φ₀ k - k| ≤ k / 2 ^ 53 := by
    have := rq_add_err (φ := φ₀) (a := (k:ℚ)) (b := 0)
    rcases le_or_gt k (2 ^ 53) with h | h
    · rw [rq_repr (by rw [abs_of_pos (by linarith)]; exact b64_int (by omega) h)]
      rw [sub_self, abs_zero]; positivity
    · rcases rq_err (φ := φ₀) (k:ℚ) with h3 | h3
      · rw [u, abs_of_pos (by linarith : (0:ℚ) < k)] at h3; linarith
      · refine h3.trans (eta.2.trans ?_)
        rw [div_le_div_iff₀ (by positivity) (by positivity)]; nlinarith
  have vk : Val φ₀ (rndQ φ₀ k) (rq φ₀ k) := val_rndQ (b64_lt (by rw [abs_of_nonneg (by linarith)]; linarith))
  have v1 : Val φ₀ (rndQ φ₀ 1) 1 := by
    have := val_rndQ (φ := φ₀) (q := 1) (b64_lt (by rw [rq_one]; norm_num))
    rwa [rq_one] at this
  set κ := rq φ₀ (k:ℚ) with hκ
  have c1 : |rq φ₀ (1 + κ)| ≤ 2 ^ (64:ℤ) := abs_rq_le r64 (by rw [abs_of_nonneg (by linarith)]; norm_num at b1 ⊢; linarith)
  have vs := v1.add vk (b64_lt (c1.trans (by norm_num)))
  have hm := rq_mono (φ := φ₀) (show κ ≤ 1 + κ by linarith)
  have e0 : rq φ₀ κ = κ := by rw [hκ]; exact rq_repr (repr_rq _)
  rw [e0] at hm
  have e2 : |rq φ₀ (1 + κ) - (1 + κ)| ≤ (1 + κ) / 2 ^ 53 := by
    have := rq_add_err (φ := φ₀) (a := 1) (b := κ) (by simpa using b64_int (k := 1) (by norm_num) (by norm_num)) (by rw [hκ]; exact repr_rq _)
    rw [u, abs_of_pos (by linarith : (0:ℚ) < 1 + κ)] at this; linarith
  set τ := rq φ₀ (1 + κ) with hτ
  have hτ2 : τ ≤ 2 * κ := by
    -- `1 + κ ≤ 2 κ`, and `2 κ` is representable
    have h3 : rq φ₀ (2 * κ) = 2 * κ := by
      refine rq_repr ?_
      rw [abs_of_nonneg (by linarith)]
      have hr : Repr φ₀ κ := by have := repr_rq (φ := φ₀) (k:ℚ); rwa [← hκ, abs_of_nonneg (by linarith)] at this
      obtain ⟨m, e, he, hm', h4⟩ := hr
      exact ⟨m, e + 1, by omega, hm', by rw [h4, zpow_add_one₀ (by norm_num)]; ring⟩
    have := rq_mono (φ := φ₀) (show 1 + κ ≤ 2 * κ by linarith)
    rwa [h3] at this
  have hτp : 0 < τ := by linarith
  have q1 : κ / τ ≤ 1 := by rw [div_le_one hτp]; exact hm
  have q2 : 1 / 2 ≤ κ / τ := by rw [div_le_div_iff₀ (by norm_num) hτp]; linarith
  have r1 : Repr φ₀ 1 := by simpa using b64_int (k := 1) (by norm_num) (by norm_num)
  have rh : Repr φ₀ (1 / 2) := by have := b64_repr_pow (e := -1) (by norm_num); norm_num at this ⊢; exact this
  have d1 : rq φ₀ (κ / τ) ≤ 1 := by
    have := abs_rq_le r1 (q := κ / τ) (by rw [abs_of_nonneg (by linarith)]; exact q1)
    exact (le_abs_self _).trans this
  have d2 : 1 / 2 ≤ rq φ₀ (κ / τ) := by
    have := le_abs_rq rh (q := κ / τ) (by rw [abs_of_nonneg (by linarith)]; exact q2)
    rwa [abs_of_nonneg (rq_nonneg (by linarith))] at this
  have vd := vk.div vs hτp.ne' (b64_lt (by rw [abs_of_nonneg (by linarith)]; linarith))
  have e3 : |rq φ₀ (κ / τ) - κ / τ| ≤ 1 / 2 ^ 53 := by
    rcases rq_err (φ := φ₀) (κ / τ) with h3 | h3
    · rw [u, abs_of_nonneg (by linarith : (0:ℚ) ≤ κ / τ)] at h3
      refine h3.trans ?_
      have := mul_le_mul_of_nonneg_right q1 (show (0:ℚ) ≤ 1 / 2 ^ 53 by positivity)
      linarith
    · exact h3.trans (eta.2.trans (by norm_num))
  refine ⟨rq φ₀ (κ / τ), ?_, ?_, d2, d1, ?_⟩
  · exact vd.pos (by linarith)
  · exact ⟨false, _, rfl, rfl, by have := repr_rq (φ := φ₀) (κ / τ); rwa [abs_of_nonneg (by linarith)] at this,
      by have := b64_lt (q := rq φ₀ (κ / τ)) (by rw [abs_of_nonneg (by linarith)]; linarith); rwa [abs_of_nonneg (by linarith)] at this⟩
  · -- κ/τ against k/(k+1)
    have hk1 : (0:ℚ) < k + 1 := by linarith
    have e4 : |κ / τ - k / (k + 1)| ≤ 5 / 2 ^ 53 / 2 := by
      rw [div_sub_div _ _ hτp.ne' hk1.ne', abs_div, abs_of_pos (mul_pos hτp hk1), div_le_iff₀ (mul_pos hτp hk1)]
      obtain ⟨a1, a2⟩ := abs_le.1 e1
      obtain ⟨a3, a4⟩ := abs_le.1 e2
      have : κ * (k + 1) - τ * k = (κ - k) - (τ - (1 + κ)) * k := by ring
      rw [this]
      have hτk : (k + 1) * (1 - 1 / 2 ^ 52) ≤ τ := by
        have : (1 + κ) * (1 - 1 / 2 ^ 53) ≤ τ := by linarith
        have h5 : (k + 1) * (1 - 1 / 2 ^ 53) ≤ 1 + κ := by linarith
        nlinarith
      have b5 : |(κ - k) - (τ - (1 + κ)) * k| ≤ k / 2 ^ 53 + (1 + κ) / 2 ^ 53 * k := by
        refine (abs_sub _ _).trans (add_le_add e1 ?_)
        rw [abs_mul, abs_of_pos (by linarith : (0:ℚ) < k)]
        exact mul_le_mul_of_nonneg_right e2 (by linarith)
      refine b5.trans ?_
      have h6 : 1 + κ ≤ (k + 1) * (1 + 1 / 2 ^ 53) := by linarith
      have h7 : (1 + κ) / 2 ^ 53 * k ≤ (k + 1) * (1 + 1 / 2 ^ 53) / 2 ^ 53 * k := by
        refine mul_le_mul_of_nonneg_right (div_le_div_of_nonneg_right h6 (by positivity)) (by linarith)
      have h8 : 5 / 2 ^ 53 / 2 * ((k + 1) * (1 - 1 / 2 ^ 52) * (k + 1)) ≤ 5 / 2 ^ 53 / 2 * (τ * (k + 1)) := by
        refine mul_le_mul_of_nonneg_left (mul_le_mul_of_nonneg_right hτk hk1.le) (by positivity)
      refine le_trans ?_ h8
      nlinarith
    calc |rq φ₀ (κ / τ) - k / (k + 1)| ≤ |rq φ₀ (κ / τ) - κ / τ| + |κ / τ - k / (k + 1)| := abs_sub_le _ _ _
      _ ≤ 1 / 2 ^ 53 + 5 / 2 ^ 53 / 2 := add_le_add e3 e4
      _ ≤ _ := by norm_num

end
end Polylog
