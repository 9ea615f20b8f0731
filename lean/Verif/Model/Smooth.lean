import Verif.Model.NumPy
import Verif.Model.Linspace
import Mathlib.Algebra.Order.Field.Basic
import Mathlib.Algebra.Order.Floor.Ring
import Mathlib.Analysis.SpecialFunctions.Complex.Circle

/-!
# Smoothing of marginals (/repo/bet/postProcess/plotP.py:369-460)
-/

set_option autoImplicit false

namespace BET

/-! ### The Fourier transforms of `scipy.fftpack` -/

/-- The powers of the root of unity `exp(2 π i / n)`. -/
noncomputable def unityRoot (n : Nat) (d : ℤ) : ℂ :=
  Complex.exp (2 * Real.pi * Complex.I * ((d : ℂ) / (n : ℂ)))

/-- `np.real(ifft(fft(a) * fft(b)))` for arrays of one length, with the sums that `scipy.fftpack` documents
(/repo/bet/postProcess/plotP.py:403-404). Floating-point rounding is not modelled. -/
noncomputable def fftConv (a b : List ℝ) : List ℝ :=
  (List.range a.length).map fun (m : Nat) =>
    ((a.length : ℂ)⁻¹ * ∑ k ∈ Finset.range a.length, unityRoot a.length (k * m) *
      ((∑ n ∈ Finset.range a.length, ((a.getD n 0 : ℝ) : ℂ) * unityRoot a.length (-(n * k))) *
        ∑ l ∈ Finset.range a.length, ((b.getD l 0 : ℝ) : ℂ) * unityRoot a.length (-(l * k)))).re

/-- `np.real(ifft2(fft2(a) * fft2(b)))` for arrays of the shape `(n₁, n₂)`
(/repo/bet/postProcess/plotP.py:453-455). -/
noncomputable def fftConv2 (n₁ n₂ : Nat) (a b : List (List ℝ)) : List (List ℝ) :=
  (List.range n₁).map fun (m₁ : Nat) => (List.range n₂).map fun (m₂ : Nat) =>
    (((n₁ : ℂ) * (n₂ : ℂ))⁻¹ * ∑ k₁ ∈ Finset.range n₁, ∑ k₂ ∈ Finset.range n₂,
      unityRoot n₁ (k₁ * m₁) * unityRoot n₂ (k₂ * m₂) *
      ((∑ p ∈ Finset.range n₁, ∑ q ∈ Finset.range n₂, (((a.getD p []).getD q 0 : ℝ) : ℂ) *
          (unityRoot n₁ (-(p * k₁)) * unityRoot n₂ (-(q * k₂)))) *
        ∑ p ∈ Finset.range n₁, ∑ q ∈ Finset.range n₂, (((b.getD p []).getD q 0 : ℝ) : ℂ) *
          (unityRoot n₁ (-(p * k₁)) * unityRoot n₂ (-(q * k₂))))).re

variable {K : Type} [Field K] [LinearOrder K] [FloorRing K]

/-- What the functions use of NumPy and SciPy: the exponential, and products of Fourier transforms in
one and two dimensions. -/
structure Smoother (K : Type) where
  exp : K → K
  conv : List K → List K → List K
  conv2 : Nat → Nat → List (List K) → List (List K) → List (List K)

/-- `a = np.zeros((nx + 2 * aug,)); a[aug:aug + nx] = xs` for `xs` of length `nx`. -/
def embed (aug : Nat) (xs : List K) : List K := List.replicate aug 0 ++ xs ++ List.replicate aug 0

/-- The same in two dimensions, for `xs` of shape `(nx, ny)`. -/
def embed2 (aug₁ aug₂ ny : Nat) (xs : List (List K)) : List (List K) :=
  List.replicate aug₁ (List.replicate (ny + 2 * aug₂) 0) ++ xs.map (embed aug₂) ++
    List.replicate aug₁ (List.replicate (ny + 2 * aug₂) 0)

/-- `fftshift(xs)`: `np.roll(xs, len(xs) // 2)`. -/
def fftshift {α : Type} (xs : List α) : List α :=
  xs.drop (xs.length - xs.length / 2) ++ xs.take (xs.length - xs.length / 2)

/-- `xs[aug:aug + nx]`. -/
def crop {α : Type} (aug nx : Nat) (xs : List α) : List α := (xs.drop aug).take nx

/-- `np.exp(-(np.linspace(-nx * dx / 2, nx * dx / 2, nx) / sigma)**2)`
(/repo/bet/postProcess/plotP.py:398-399). -/
def kernel1 (S : Smoother K) (nx : Nat) (dx sigma : K) : List K :=
  (linspace (-((nx : K) * dx / 2)) ((nx : K) * dx / 2) nx).map fun x => S.exp (-(x / sigma) ^ 2)

/-- /repo/bet/postProcess/plotP.py:443-447. -/
def kernel2 (S : Smoother K) (nx ny : Nat) (dx dy s₁ s₂ : K) : List (List K) :=
  (linspace (-((nx : K) * dx / 2)) ((nx : K) * dx / 2) nx).map fun x =>
    (linspace (-((ny : K) * dy / 2)) ((ny : K) * dy / 2) ny).map fun y =>
      S.exp (-(x / s₁) ^ 2 - (y / s₂) ^ 2)

/-- `int(math.ceil(3 * sigma / dx))`; negative values, for which the arrays cannot be made, are refused
(Python raises in the slice assignment). For `sigma = 0` the kernel divides by zero: it is zero or nan, and so the
result is nan; this is an error here. -/
def augOf (dx sigma : K) : Except Err Nat := do
  let _ ← raiseIf (dx = 0 ∨ sigma = 0) .zeroDivision
  let _ ← raiseIf (⌈3 * sigma / dx⌉ < 0) .valueError
  pure ⌈3 * sigma / dx⌉.toNat

/-- `bins[i][1] - bins[i][0]`. -/
def firstWidth (b : List K) : Except Err K := do
  let b1 ← getIdx b 1
  let b0 ← getIdx b 0
  pure (b1 - b0)

/-- The body of the loop for one marginal (/repo/bet/postProcess/plotP.py:390-406). The slice assignment
raises for another number of values than of bins (a single value, which NumPy repeats, is not
modelled); division by a zero sum gives nan in NumPy. -/
def smoothOne (S : Smoother K) (b : List K) (sigma : K) (m : List K) : Except Err (List K) := do
  let dx ← firstWidth b
  let aug ← augOf dx sigma
  let _ ← raiseIf (m.length ≠ b.length - 1) .valueError
  let ker := fftshift (embed aug (kernel1 S (b.length - 1) dx sigma))
  let s := crop aug (b.length - 1) (S.conv ker (embed aug m))
  let _ ← raiseIf (s.sum = 0) .zeroDivision
  pure (s.map fun x => x / s.sum)

/-- The body of the loop for one pair (/repo/bet/postProcess/plotP.py:431-458). -/
def smoothTwo (S : Smoother K) (b₁ b₂ : List K) (s₁ s₂ : K) (m : List (List K)) :
    Except Err (List (List K)) := do
  let dx ← firstWidth b₁
  let dy ← firstWidth b₂
  let aug₁ ← augOf dx s₁
  let aug₂ ← augOf dy s₂
  let _ ← raiseIf (m.length ≠ b₁.length - 1 ∨ ∃ r ∈ m, r.length ≠ b₂.length - 1) .valueError
  let ker := embed2 aug₁ aug₂ (b₂.length - 1) (kernel2 S (b₁.length - 1) (b₂.length - 1) dx dy s₁ s₂)
  let ker := (fftshift ker).map fftshift
  let c := S.conv2 (b₁.length - 1 + 2 * aug₁) (b₂.length - 1 + 2 * aug₂) ker
    (embed2 aug₁ aug₂ (b₂.length - 1) m)
  let s := (crop aug₁ (b₁.length - 1) c).map (crop aug₂ (b₂.length - 1))
  let _ ← raiseIf (s.flatten.sum = 0) .zeroDivision
  pure (s.map fun r => r.map fun x => x / s.flatten.sum)

/-- The smoothing parameter: one number, or one for each direction
(/repo/bet/postProcess/plotP.py:385-386, 425-426). -/
inductive Sigma (K : Type)
  | one (s : K)
  | each (s : List K)

def Sigma.toList (n : Nat) : Sigma K → List K
  | .one s => List.replicate n s
  | .each s => s

/-- /repo/bet/postProcess/plotP.py:369-408 `smooth_marginals_1D`: a dictionary is a list of keys and
values; the order in which the keys are treated does not matter but for which exception is raised. -/
def smoothMarginals1D (S : Smoother K) (marginals : List (Nat × List K)) (bins : List (List K))
    (sigma : Sigma K) : Except Err (List (Nat × List K)) :=
  marginals.mapM fun e => do
    let b ← getIdx bins e.1
    let s ← getIdx (sigma.toList bins.length) e.1
    let r ← smoothOne S b s e.2
    pure (e.1, r)

/-- /repo/bet/postProcess/plotP.py:416-460 `smooth_marginals_2D`. -/
def smoothMarginals2D (S : Smoother K) (marginals : List ((Nat × Nat) × List (List K)))
    (bins : List (List K)) (sigma : Sigma K) : Except Err (List ((Nat × Nat) × List (List K))) :=
  marginals.mapM fun e => do
    let b₁ ← getIdx bins e.1.1
    let b₂ ← getIdx bins e.1.2
    let s₁ ← getIdx (sigma.toList bins.length) e.1.1
    let s₂ ← getIdx (sigma.toList bins.length) e.1.2
    let r ← smoothTwo S b₁ b₂ s₁ s₂ e.2
    pure (e.1, r)

end BET
