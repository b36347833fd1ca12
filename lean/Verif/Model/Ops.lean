import Mathlib.Data.Rat.Defs
import Mathlib.Data.Rat.Floor
import Batteries.Lean.Except

/-!
# Operations used by the C++ sources

The C++ sources under `/repo/src/cpp` are modelled *once*, as functions that are polymorphic in the
arithmetic type `F` (`float`, `double`, `long double`).  `FOps F` lists exactly the operations of the
C++ core language and of `<cmath>`/`<complex>`/`<limits>` that the sources use.  The interpretations of
these operations (exact reals, IEEE-754 values with rounding) live in `Verif/Sem`.

No law about the operations is assumed here.
-/

namespace Polylog

/-- The floating-point operations used by `/repo/src/cpp/*.cpp`. -/
class FOps (F : Type) where
  /-- a numeric literal (a decimal literal of the source, or an `int` literal converted to `F`) -/
  lit : ℚ → F
  /-- conversion of an `int64_t` to `F` -/
  ofInt : Int → F
  add : F → F → F
  sub : F → F → F
  mul : F → F → F
  div : F → F → F
  neg : F → F
  /-- C comparison operators (all of them `false` on NaN) -/
  lt : F → F → Bool
  le : F → F → Bool
  eq : F → F → Bool
  /-- `<cmath>` -/
  log : F → F
  log1p : F → F
  sin : F → F
  cos : F → F
  atan : F → F
  ceil : F → F
  exp2 : F → F
  tgamma : F → F
  pow : F → F → F
  fmod : F → F → F
  hypot : F → F → F
  /-- `atan2 y x` -/
  atan2 : F → F → F
  /-- `std::numeric_limits<F>::infinity()`, `quiet_NaN()`, `epsilon()` -/
  inf : F
  nan : F
  eps : F
  isnan : F → Bool
  isinf : F → Bool
  isfinite : F → Bool
  /-- `static_cast<int64_t>`; `none` when the value is not representable (undefined behaviour) -/
  toInt : F → Option Int
  /-- complex multiplication / division as performed by the compiler, on `(re, im)` pairs -/
  cmul : F × F → F × F → F × F
  cdiv : F × F → F × F → F × F
  /-- `std::sqrt(std::complex)` and `std::pow(std::complex, int64_t)` -/
  csqrt : F × F → F × F
  cpow : F × F → Int → F × F

/-- `std::complex<F>` -/
structure Cx (F : Type) where
  re : F
  im : F
deriving DecidableEq, Repr

/-! ## Heterogeneous operators, as overloaded in C++ (`double`/`double`, `complex`/`double`, ...) -/

class XAdd (α β : Type) (γ : outParam Type) where
  xadd : α → β → γ
class XSub (α β : Type) (γ : outParam Type) where
  xsub : α → β → γ
class XMul (α β : Type) (γ : outParam Type) where
  xmul : α → β → γ
class XDiv (α β : Type) (γ : outParam Type) where
  xdiv : α → β → γ
class XNeg (α : Type) where
  xneg : α → α

infixl:65 " +. " => XAdd.xadd
infixl:65 " -. " => XSub.xsub
infixl:70 " *. " => XMul.xmul
infixl:70 " /. " => XDiv.xdiv
/-- unary minus -/
prefix:max "∸" => XNeg.xneg

infix:50 " <. " => FOps.lt
infix:50 " <=. " => FOps.le
infix:50 " ==. " => FOps.eq

/-- `std::log` is overloaded for real and complex arguments -/
class XLog (α : Type) where
  xlog : α → α
export XLog (xlog)

section
variable {F : Type} [FOps F]

/-- C `a > b` -/
def fgt (a b : F) : Bool := FOps.lt b a
/-- C `a >= b` -/
def fge (a b : F) : Bool := FOps.le b a

infix:50 " >. " => fgt
infix:50 " >=. " => fge

instance : XAdd F F F := ⟨FOps.add⟩
instance : XSub F F F := ⟨FOps.sub⟩
instance : XMul F F F := ⟨FOps.mul⟩
instance : XDiv F F F := ⟨FOps.div⟩
instance : XNeg F := ⟨FOps.neg⟩
instance : XLog F := ⟨FOps.log⟩

/-- `complex + complex` : componentwise -/
instance : XAdd (Cx F) (Cx F) (Cx F) := ⟨fun a b => ⟨a.re +. b.re, a.im +. b.im⟩⟩
/-- `complex + real` (libstdc++: `r = x; r += y` touches the real part only) -/
instance : XAdd (Cx F) F (Cx F) := ⟨fun a b => ⟨a.re +. b, a.im⟩⟩
/-- `real + complex` (libstdc++: `r = y; r += x`) -/
instance : XAdd F (Cx F) (Cx F) := ⟨fun a b => ⟨b.re +. a, b.im⟩⟩
instance : XSub (Cx F) (Cx F) (Cx F) := ⟨fun a b => ⟨a.re -. b.re, a.im -. b.im⟩⟩
instance : XSub (Cx F) F (Cx F) := ⟨fun a b => ⟨a.re -. b, a.im⟩⟩
/-- `real - complex` (libstdc++: `complex(x - y.real(), -y.imag())`) -/
instance : XSub F (Cx F) (Cx F) := ⟨fun a b => ⟨a -. b.re, ∸b.im⟩⟩
instance : XMul (Cx F) (Cx F) (Cx F) :=
  ⟨fun a b => let r := FOps.cmul (a.re, a.im) (b.re, b.im); ⟨r.1, r.2⟩⟩
/-- `complex * real` : componentwise -/
instance : XMul (Cx F) F (Cx F) := ⟨fun a b => ⟨a.re *. b, a.im *. b⟩⟩
instance : XMul F (Cx F) (Cx F) := ⟨fun a b => ⟨b.re *. a, b.im *. a⟩⟩
instance : XDiv (Cx F) (Cx F) (Cx F) :=
  ⟨fun a b => let r := FOps.cdiv (a.re, a.im) (b.re, b.im); ⟨r.1, r.2⟩⟩
/-- `complex / real` : componentwise -/
instance : XDiv (Cx F) F (Cx F) := ⟨fun a b => ⟨a.re /. b, a.im /. b⟩⟩
/-- `real / complex` (libstdc++: `r = complex(x); r /= y`) -/
instance : XDiv F (Cx F) (Cx F) :=
  ⟨fun a b => let r := FOps.cdiv (a, FOps.lit 0) (b.re, b.im); ⟨r.1, r.2⟩⟩
instance : XNeg (Cx F) := ⟨fun a => ⟨∸a.re, ∸a.im⟩⟩

/-- complex literal promotion `std::complex<T>(x)` -/
def Cx.ofReal (x : F) : Cx F := ⟨x, FOps.lit 0⟩

/-- `complex == complex` -/
def Cx.beq (a b : Cx F) : Bool := (a.re ==. b.re) && (a.im ==. b.im)
/-- `complex == real` -/
def Cx.beqr (a : Cx F) (b : F) : Bool := (a.re ==. b) && (a.im ==. FOps.lit 0)
/-- `complex != complex` -/
def Cx.bne (a b : Cx F) : Bool := !(Cx.beq a b)

/-- `std::norm(z)` (libstdc++: `x*x + y*y`) -/
def Cx.norm (z : Cx F) : F := z.re *. z.re +. z.im *. z.im
/-- `std::abs(z)` -/
def Cx.abs (z : Cx F) : F := FOps.hypot z.re z.im
/-- `std::arg(z)` -/
def Cx.arg (z : Cx F) : F := FOps.atan2 z.im z.re
/-- `std::log(z)` for complex `z` (libstdc++: `complex(log(abs(z)), arg(z))`) -/
def Cx.log (z : Cx F) : Cx F := ⟨FOps.log z.abs, z.arg⟩
instance : XLog (Cx F) := ⟨Cx.log⟩
/-- `std::sqrt(z)` for complex `z` -/
def Cx.sqrt (z : Cx F) : Cx F := let r := FOps.csqrt (z.re, z.im); ⟨r.1, r.2⟩
/-- `std::pow(z, n)` for complex `z` and integer `n` -/
def Cx.pow (z : Cx F) (n : Int) : Cx F := let r := FOps.cpow (z.re, z.im) n; ⟨r.1, r.2⟩

/-- `std::pow(x, n)` for an integer exponent (the exponent is converted to `F`) -/
def powi (x : F) (n : Int) : F := FOps.pow x (FOps.ofInt n)

end

/-! ## Undefined behaviour and `int64_t` arithmetic -/

/-- Outcomes that are not a value: undefined behaviour of C++, or running out of the fuel that bounds
a recursion of the model. -/
inductive Fault where
  /-- signed integer overflow -/
  | overflow
  /-- array index out of bounds -/
  | outOfBounds
  /-- floating-point to integer conversion of an unrepresentable value -/
  | badCast
  /-- the recursion did not finish within the given depth -/
  | fuel
deriving DecidableEq, Repr

/-- A C++ computation: a value or a `Fault`. -/
abbrev M (α : Type) := Except Fault α

/-- `std::numeric_limits<int64_t>::min()`, `max()` -/
def i64min : Int := -9223372036854775808
def i64max : Int := 9223372036854775807

/-- result of an `int64_t` operation whose mathematical value is `v` -/
def i64 (v : Int) : M Int := if i64min ≤ v ∧ v ≤ i64max then pure v else throw .overflow

/-- `int64_t` addition, subtraction, multiplication, negation: overflow is undefined behaviour -/
def i64add (a b : Int) : M Int := i64 (a + b)
def i64sub (a b : Int) : M Int := i64 (a - b)
def i64mul (a b : Int) : M Int := i64 (a * b)
def i64neg (a : Int) : M Int := i64 (-a)
/-- `int64_t` division by a literal (truncating); only used with divisor 2 or 4 -/
def i64div (a b : Int) : Int := a.tdiv b
/-- `constexpr bool is_even(int64_t n) noexcept { return n % 2 == 0; }`
(`Cl.cpp` 117-120, `Sl.cpp` 19-22, `Li.cpp` 29, `eta.cpp` 77, `zeta.cpp` 80) -/
def isEven (n : Int) : Bool := n.tmod 2 == 0

/-- array access `a[i]` with an `int64_t` index; out of bounds is undefined behaviour -/
def arrGet {α : Type} {N : Nat} (a : Vector α N) (i : Int) : M α :=
  if h : 0 ≤ i ∧ i.toNat < N then pure (a[i.toNat]'h.2) else throw .outOfBounds

end Polylog
