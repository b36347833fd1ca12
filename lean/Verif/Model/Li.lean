import Verif.Model.Tables
import Verif.Model.Li2
import Verif.Model.Li3
import Verif.Model.Li4
import Verif.Model.Li5
import Verif.Model.Li6

/-! # `Li.cpp` -/

namespace Polylog

section
variable {F : Type} [FOps F]

/-- numeric literal -/
local notation:max "♯" q:max => (FOps.lit (q : ℚ) : F)
/-- conversion of an integer -/
local notation:max "♮" k:max => (FOps.ofInt k : F)

/-- `is_finite(const std::complex<double>&)` (Li.cpp 31-34) -/
def cisFinite (z : Cx F) : Bool := FOps.isfinite z.re && FOps.isfinite z.im

/-- `clog` (Li.cpp 37-45), `PI` of Li.cpp 27 -/
def clog (z : Cx F) : Cx F :=
  if z.im ==. ♯0 && z.re >. ♯0 then ⟨FOps.log z.re, ♯0⟩
  else if z.im ==. ♯0 then ⟨FOps.log ∸z.re, ♯3.1415926535897932⟩
  else ⟨FOps.log (FOps.hypot z.re z.im), Cx.arg z⟩

/-- the do-while loop of `Li_series` (Li.cpp 54-60). `fuel` is `max - 2 - k`, the number of iterations
allowed by `k < std::numeric_limits<int64_t>::max() - 2` after the current one -/
def liSeriesLoop (n : Int) (z : Cx F) : (fuel : Nat) → (k : Int) → (sum p : Cx F) → Cx F
  | fuel, k, sum, p =>
    let k := k + 1
    let sumOld := sum
    let sum := sum +. p
    let p := p *. (z *. powi (♮k /. (♯1 +. ♮k)) n)
    if !cisFinite p then sum
    else if Cx.bne sum sumOld then
      match fuel with
      | 0 => sum
      | fuel + 1 => liSeriesLoop n z fuel k sum p
    else sum

/-- `Li_series` (Li.cpp 49-63): the loop body runs first with `k = 1`; the condition `k < max - 2`
allows `max - 3` further runs. -/
def liSeries (n : Int) (z : Cx F) : Cx F :=
  liSeriesLoop n z (i64max - 3).toNat 0 ⟨♯0, ♯0⟩ z

/-- first loop of `Li_unity_pos`: `for (int64_t j = 1; j < n - 1; ++j)` (Li.cpp 72-75);
`fuel` remaining iterations; returns `(sum, p)` -/
def liUnityPosLoop1 (n : Int) (lnz : Cx F) : (fuel : Nat) → (j : Int) → (sum p : Cx F) → M (Cx F × Cx F)
  | 0, _, sum, p => pure (sum, p)
  | fuel + 1, j, sum, p => do
    let p := p *. (lnz /. ♮j)
    let nj ← i64sub n j
    let zt : F ← zeta nj
    liUnityPosLoop1 n lnz fuel (j + 1) (sum +. zt *. p) p

/-- second loop of `Li_unity_pos`: `for (int64_t j = n + 3; j < max - 2; j += 2)` (Li.cpp 86-91) -/
def liUnityPosLoop2 (n : Int) (lnz2 : Cx F) : (fuel : Nat) → (j : Int) → (sum p : Cx F) → M (Cx F)
  | 0, _, sum, _ => pure sum
  | fuel + 1, j, sum, p =>
    if j < i64max - 2 then do
      let jj ← i64mul (← i64sub j 1) j
      let p := p *. (lnz2 /. ♮jj)
      let oldSum := sum
      let zt : F ← zeta (← i64sub n j)
      let sum := sum +. zt *. p
      if Cx.beq sum oldSum then pure sum
      else liUnityPosLoop2 n lnz2 fuel (← i64add j 2) sum p
    else pure sum

/-- `Li_unity_pos` (Li.cpp 66-94), called with `n >= 7`.  The fuel of the second loop (2^63) exceeds its number of iterations. -/
def liUnityPos (n : Int) (z : Cx F) : M (Cx F) := do
  let lnz := clog z
  let lnz2 := lnz *. lnz
  let zn : F ← zeta n
  let n1 ← i64sub n 1
  let sp ← liUnityPosLoop1 n lnz (n1 - 1).toNat 1 ⟨zn, ♯0⟩ ⟨♯1, ♯0⟩
  let sum := sp.1
  let p := sp.2
  let p := p *. (lnz /. ♮n1)
  let h : F ← harmonic n1
  let sum := sum +. (h -. clog ∸lnz) *. p
  let p := p *. (lnz /. ♮n)
  let z0 : F ← zeta 0
  let sum := sum +. z0 *. p
  let p := p *. (lnz /. ♮(← i64add n 1))
  let zm1 : F ← zeta (-1)
  let sum := sum +. zm1 *. p
  let j ← i64add n 3
  liUnityPosLoop2 n lnz2 (2 ^ 63) j sum p

/-- `stable_pow` (Li.cpp 97-114).  C `%` truncates. -/
def stablePow (z : Cx F) (n : Int) : M (Cx F) := do
  if z.im ==. ♯0 then pure ⟨powi z.re n, ♯0⟩
  else if z.re ==. ♯0 then do
    let p := powi z.im n
    if n.tmod 4 = 0 then pure ⟨p, ♯0⟩
    else if n.tmod 2 = 0 then pure ⟨∸p, ♯0⟩
    else do
      let n1 ← i64sub n 1
      if n1.tmod 4 = 0 then pure ⟨♯0, p⟩
      else pure ⟨♯0, ∸p⟩
  else pure (Cx.pow z n)

/-- the do-while loop of `Li_unity_neg` (Li.cpp 134-141).  There is no bound on `k` in the source; `k += 2`
overflows after at most 2^62 iterations, so the fuel 2^62 is never exhausted. -/
def liUnityNegLoop (n : Int) (lnz2 : Cx F) : (fuel : Nat) → (k : Int) → (sum lnzk : Cx F) → M (Cx F)
  | 0, _, _, _ => throw .fuel
  | fuel + 1, k, sum, lnzk => do
    let zt : F ← zeta (← i64sub n k)
    let ifk : F ← invFac k
    let term := zt *. ifk *. lnzk
    if !cisFinite term then pure sum
    else do
      let sumOld := sum
      let sum := sum +. term
      let lnzk := lnzk *. lnz2
      let k ← i64add k 2
      if Cx.bne sum sumOld then liUnityNegLoop n lnz2 fuel k sum lnzk
      else pure sum

/-- `Li_unity_neg` (Li.cpp 117-144), called with `n < -1` -/
def liUnityNeg (n : Int) (z : Cx F) : M (Cx F) := do
  let lnz := clog z
  let lnz2 := lnz *. lnz
  let sp ← stablePow ∸lnz (← i64sub n 1)
  let sum := FOps.tgamma ♮(← i64sub 1 n) *. sp
  if isEven n then liUnityNegLoop n lnz2 (2 ^ 62) 1 sum lnz
  else do
    let zn : F ← zeta n
    liUnityNegLoop n lnz2 (2 ^ 62) 2 (sum +. zn) lnz2

/-- the loop of `Li_rest`: `for (int64_t k = kmax; k != 0; --k)` (Li.cpp 155-161).
`oldSum` is the never-assigned, default-initialised `old_sum`.
The first component of the result is `some v` for the early `return v`, otherwise the second and third are `sum`, `p`. -/
def liRestLoop (n : Int) (lnz2 : Cx F) : (k : Nat) → (sum p : Cx F) → M (Option (Cx F) × Cx F × Cx F)
  | 0, sum, p => pure (none, sum, p)
  | k + 1, sum, p => do
    let oldSum : Cx F := ⟨♯0, ♯0⟩
    let k2 ← i64mul 2 (k + 1)
    let ifac : F ← invFac (← i64sub n k2)
    if ifac ==. ♯0 then pure (some (♯2 *. sum), sum, p)
    else do
      let ne : F ← negEta k2
      let sum := sum +. ne *. ifac *. p
      let p := p *. lnz2
      if Cx.beq sum oldSum then pure (none, sum, p)
      else liRestLoop n lnz2 k sum p

/-- `Li_rest` (Li.cpp 147-164), called with `n >= 7` -/
def liRest (n : Int) (z : Cx F) : M (Cx F) := do
  let lnz := clog ∸z
  let lnz2 := lnz *. lnz
  let kmax := if isEven n then i64div n 2 else i64div (n - 1) 2
  let p : Cx F := if isEven n then Cx.ofReal ♯1 else lnz
  let r ← liRestLoop n lnz2 kmax.toNat ⟨♯0, ♯0⟩ p
  match r.1 with
  | some v => pure v
  | none => do
    let ifn : F ← invFac n
    pure (♯2 *. r.2.1 -. r.2.2 *. ifn)

/-- `std::complex<double> Li(int64_t n, const std::complex<double>& z)` (Li.cpp 178-228).
`fuel` bounds the depth of the self-recursion of the branch `n < -1`; `PI` of Li.cpp 27.
The C++ evaluates no integer operation of other branches. -/
def Li (fuel : Nat) (n : Int) (z : Cx F) : M (Cx F) :=
  let PI : F := ♯3.1415926535897932
  if FOps.isnan z.re || FOps.isnan z.im then pure ⟨FOps.nan, FOps.nan⟩
  else if FOps.isinf z.re || FOps.isinf z.im then pure ⟨∸(FOps.inf : F), ♯0⟩
  else if Cx.beqr z ♯0 then pure z
  else if Cx.beqr z ♯1 then
    if n ≤ 0 then pure ⟨FOps.inf, FOps.inf⟩
    else do
      let zn : F ← zeta n
      pure ⟨zn, z.im⟩
  else if Cx.beqr z ∸♯1 then do
    let e : F ← negEta n
    pure ⟨e, z.im⟩
  else if n < -1 then
    let nz := (Cx.norm z)
    let nl := (Cx.norm ((clog z)))
    if ♯4 *. PI *. PI *. nz <. nl then pure (liSeries n z)
    else if nl <. ♯0.512 *. ♯0.512 *. ♯4 *. PI *. PI then liUnityNeg n z
    else
      match fuel with
      | 0 => throw .fuel
      | fuel + 1 => do
        let sqrtz := (Cx.sqrt z)
        let n1 ← i64sub n 1
        let a ← Li fuel n sqrtz
        let b ← Li fuel n ∸sqrtz
        pure (FOps.exp2 (♮n1) *. (a +. b))
  else if n = -1 then pure (z /. ((♯1 -. z) *. (♯1 -. z)))
  else if n = 0 then pure (z /. (♯1 -. z))
  else if n = 1 then pure (∸(clog (♯1 -. z)))
  else if n = 2 then pure (cLi2d z)
  else if n = 3 then pure (cLi3d z)
  else if n = 4 then pure (cLi4d z)
  else if n = 5 then pure (cLi5d z)
  else if n = 6 then pure (cLi6d z)
  else if (Cx.norm z) <=. ♯0.75 *. ♯0.75 then pure (liSeries n z)
  else if (Cx.norm z) >=. ♯1.4 *. ♯1.4 then do
    let sgn : F := if isEven n then ∸♯1 else ♯1
    let r ← liRest n z
    pure (sgn *. liSeries n (♯1 /. z) +. r)
  else liUnityPos n z

end
end Polylog
