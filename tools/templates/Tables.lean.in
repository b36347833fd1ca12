import Verif.Model.Ops

/-! # `zeta.cpp`, `eta.cpp`, `factorial.cpp`, `harmonic.cpp` -/

namespace Polylog

/-- `ZETAS_POS[32]`: zeta(n), n = 2,...,33 (zeta.cpp 16-28) -/
def zetasPos : Vector ℚ @@ARRN cpp/zeta.cpp 16 28@@ :=
  @@ARR cpp/zeta.cpp 16 28@@

/-- `ZETAS_NEG[130]`: zeta(1 - 2n), n = 1, 2, ... (zeta.cpp 31-76) -/
def zetasNeg : Vector ℚ @@ARRN cpp/zeta.cpp 31 76@@ :=
  @@ARR cpp/zeta.cpp 31 76@@

/-- `NEG_ETA[54]`: Li_n(-1), n = 1,...,54 (eta.cpp 15-34) -/
def negEtaPos : Vector ℚ @@ARRN cpp/eta.cpp 15 34@@ :=
  @@ARR cpp/eta.cpp 15 34@@

/-- `NEG_ETA_NEG_N[]`: Li_n(-1), n = -1, -3, -5, ... (eta.cpp 37-74) -/
def negEtaNeg : Vector ℚ @@ARRN cpp/eta.cpp 37 74@@ :=
  @@ARR cpp/eta.cpp 37 74@@

/-- `INVERSE_FACTORIALS[178]` (factorial.cpp 15-75) -/
def inverseFactorials : Vector ℚ @@ARRN cpp/factorial.cpp 15 75@@ :=
  @@ARR cpp/factorial.cpp 15 75@@

/-- `c[]` of `digamma`: B_{2n}/(2n), n = 1,...,8 (harmonic.cpp 23-27) -/
def digammaC : Vector ℚ @@ARRN cpp/harmonic.cpp 23 27@@ :=
  @@ARR cpp/harmonic.cpp 23 27@@

section
variable {F : Type} [FOps F]

/-- numeric literal -/
local notation:max "♯" q:max => (FOps.lit (q : ℚ) : F)
/-- conversion of an integer -/
local notation:max "♮" k:max => (FOps.ofInt k : F)

/-- `double zeta(int64_t n)` (zeta.cpp 83-104).
`sizeof(ZETAS_NEG)/sizeof(ZETAS_NEG[0])` is the declared size 130, that of `ZETAS_POS` is 32. -/
def zeta (n : Int) : M F := do
  if n < 0 then
    if isEven n then pure ♯0
    else do
      let i := i64div (← i64neg (← i64add 1 n)) 2
      if i < 130 then do
        let c ← arrGet zetasNeg i
        pure ♯c
      else do
        let k := i64div (← i64sub 1 n) 2
        if isEven k then pure FOps.inf else pure ∸(FOps.inf : F)
  else if n = 0 then pure ∸♯0.5
  else if n = 1 then pure FOps.inf
  else do
    let i ← i64sub n 2
    if i < 32 then do
      let c ← arrGet zetasPos i
      pure ♯c
    else pure (♯1 /. (♯1 -. powi ♯0.5 n))

/-- `double neg_eta(int64_t n)` (eta.cpp 82-100).  The size of `NEG_ETA_NEG_N` is that of its initialiser. -/
def negEta (n : Int) : M F := do
  if n < 0 then
    if isEven n then pure ♯0
    else do
      let i := i64div (← i64neg (← i64add 1 n)) 2
      if i < @@ARRN cpp/eta.cpp 37 74@@ then do
        let c ← arrGet negEtaNeg i
        pure ♯c
      else do
        let k := i64div (← i64sub 1 n) 2
        if isEven k then pure FOps.inf else pure ∸(FOps.inf : F)
  else if n = 0 then pure ∸♯0.5
  else if n ≤ 54 then do
    let c ← arrGet negEtaPos (← i64sub n 1)
    pure ♯c
  else pure ∸♯1

/-- `double inv_fac(int64_t n)` (factorial.cpp 80-89) -/
def invFac (n : Int) : M F := do
  if n < 0 then pure FOps.nan
  else if n < 178 then do
    let c ← arrGet inverseFactorials n
    pure ♯c
  else pure ♯0

/-- loop `for (int64_t nu = 1; nu < 7 - n; ++nu) { res -= 1.0/(n + nu); }` of `digamma`
(harmonic.cpp 37-39); `fuel` is the number of remaining iterations -/
def digammaLoop (n : Int) : (fuel : Nat) → (nu : Int) → F → F
  | 0, _, res => res
  | fuel + 1, nu, res =>
    digammaLoop n fuel (nu + 1) (res -. ♯1 /. ♮(n + nu))

%src cpp/harmonic.cpp 20 49
%arr c digammaC
/-- `double digamma(int64_t n)` (harmonic.cpp 20-49).  In the branch `n < 7` all integers are in 1..7. -/
def digamma (n : Int) : F :=
  if n ≤ 0 then FOps.nan
  else
    let res : F := ♯0
    let st : F × Int :=
      if n < 7 then
        let res := digammaLoop n (7 - n - 1).toNat 1 res
        let res := res -. ♯1 /. ♮n
        (res, 7)
      else (res, n)
    let res := st.1
    let n := st.2
    let t := ♯1 /. ♮n
    let t2 := t *. t
    res +. FOps.log (♮n) -. ♯0.5 *. t
      -. ⟪t2*(c[0] + t2*(c[1] + t2*(c[2] + t2*(c[3] + t2*(c[4] + t2*(c[5] + t2*(c[6] + t2*c[7])))))))⟫

/-- loop `for (int64_t k = 2; k <= n; ++k) { sum += 1.0/k; }` of `harmonic` (harmonic.cpp 60-62) -/
def harmonicLoop : (fuel : Nat) → (k : Int) → F → F
  | 0, _, sum => sum
  | fuel + 1, k, sum => harmonicLoop fuel (k + 1) (sum +. ♯1 /. ♮k)

/-- `double harmonic(int64_t n)` (harmonic.cpp 54-68) -/
def harmonic (n : Int) : M F := do
  if n ≤ 0 then pure FOps.nan
  else if n < 20 then pure (harmonicLoop (n - 1).toNat 2 ♯1)
  else do
    let eulergamma : F := ♯0.57721566490153286
    pure (eulergamma +. (digamma (← i64add n 1) : F))

end
end Polylog
