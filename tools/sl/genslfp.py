
# generates Verif/Props/SlFP.lean; bounds found with the executable interval analysis
import sys
B={int(l.split()[0]):int(l.split()[1]) for l in open('tools/sl/slfp_bounds.txt')}
out=[]
w=out.append
w("""import Verif.Props.SlFPGen

/-! # C47: `Sl(n, x)` in IEEE arithmetic, n = 2, ..., 25 (generated by tools/sl/genslfp.py)

The polynomials (`slCoreN`, C16) are evaluated symbolically (`FE.var 0` for the reduced argument) and the result is run through the verified
interval/rounding analysis on 32 boxes covering `[0, 3.1416]`. -/

namespace Polylog
set_option linter.style.longLine false

variable {φ : Fmt} {L : Lib}
""")
for n in range(2,26):
    b=B[n]; m,p=n//2,n%2
    w(f"theorem slCore{n}_fp (x : FP φ L) : fpP φ [ofF x] [] (slCore{n} (FE.var 0)) = ofF (slCore{n} x) := by exact (rfl)")
    w(f"theorem slCore{n}_rs (S : RealSem) (x : R S) : rsP S [x] [] (slCore{n} (FE.var 0)) = slCore{n} x := by exact (rfl)")
    w(f"theorem slCore{n}_cert : hiCert 53 120 [] (slCore{n} (FE.var 0)) {b*2**67} 0 [823575, 823575, 823575, 823575] = true := by decide +kernel")
    acc = f"slAcc{n} RealSem.dec_lit (by norm_num)" if n<4 else f"slAcc{n} RealSem.dec_lit"
    w(f"""theorem slCore{n}_near (r : FP binary64 L) (ρ : ℚ) (hr : Val binary64 (ofF r) ρ) (h0 : 0 ≤ ρ) (h1 : ρ ≤ rq binary64 3.14159265358979324) :
    Near binary64 (ofF (slCore{n} r)) (glaisher (2 * {m} + {p}) ρ) ({b+1} * uR binary64) := by
  have h0' : (0:ℝ) ≤ ρ := by exact_mod_cast h0
  have h1' := (clCtx_d L).le_r h1
  have hs := hi_sound fmtOK64 (by norm_num) _ (by simp) slCore{n}_cert hr (by norm_num at h0' ⊢; exact h0') (by norm_num at h1' ⊢; linarith)
  rw [slCore{n}_fp, slCore{n}_rs] at hs
  have ha := {acc} (toR RealSem.dec (ρ : ℝ)) h0' (h1'.trans (by norm_num))
  refine (hs.shift ha).mono ?_
  norm_num [uR, binary64]
""")
    lam=4 if n==2 else 2
    lip="(fun a b h0 h1 => glaisher_two_lip h0 h1 b)" if n==2 else f"(fun a b _ _ => by have := glaisher_lip {m} {p} (by norm_num) (by norm_num) a b; linarith)"
    w(f"""theorem Sl{n}_fp (x : FP binary64 L) {{q : ℚ}} (hx : Val binary64 (ofF x) q) :
    ∃ (v : FP binary64 L) (r : ℚ), Sl {n} x = .ok v ∧ Val binary64 (ofF v) r ∧ |(r : ℝ) - glaisher {n} q| ≤ ({b+1} + 8 * {lam} + 4 / 3 * {lam} * |(q : ℝ)|) * 2 ^ (-53 : ℤ) ∧
      (|(q : ℝ)| ≤ 3.14 → |(r : ℝ) - glaisher {n} q| ≤ {b+1} * 2 ^ (-53 : ℤ)) := by
  obtain ⟨r, hr⟩ := slFin (n := {n}) ((clCtx_d L).{'oddG' if p else 'evenG'} fmtA64 (f := glaisher (2 * {m} + {p})) (glaisher_neg {m} {p} (by norm_num) (by norm_num)) (glaisher_sub_two_pi _)
    {f'(E := {b+1} * uR binary64) (by have := uR_pos (φ := binary64); positivity) ' if p else ''}(Λ := {lam}) (κ := 0) (by norm_num) {lip} slCore{n}_near x hx rfl)
  exact ⟨_, r, Sl_{n} x, hr⟩
""")
w("end Polylog")
open(sys.argv[1],'w').write('\n'.join(out)+'\n')
