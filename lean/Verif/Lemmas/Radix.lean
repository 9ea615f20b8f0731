import Verif.Model.Util
import Mathlib.Data.List.ProdSigma
import Mathlib.Algebra.BigOperators.Group.List.Basic
import Mathlib.Data.Nat.ModEq
import Mathlib.Data.List.Nodup
import Mathlib.Data.List.Perm.Basic
import Mathlib.Tactic.Ring

/-!
# Row-major indices
-/

set_option autoImplicit false

namespace BET

/-- A multi-index of an array of the given shape. -/
def InShape (shape idx : List Nat) : Prop := List.Forall₂ (fun i n => i < n) idx shape

theorem ravel_lt {shape idx : List Nat} (h : InShape shape idx) : ravel shape idx < shape.prod := by
  induction h with
  | nil => simp [ravel]
  | @cons i n is ns hi _ ih =>
    rw [ravel, List.prod_cons]
    calc i * ns.prod + ravel ns is < i * ns.prod + ns.prod := by omega
      _ = (i + 1) * ns.prod := by ring
      _ ≤ n * ns.prod := Nat.mul_le_mul_right _ hi

theorem unravel_add_mul (ns : List Nat) (q r : Nat) :
    unravel ns (q * ns.prod + r) = unravel ns r := by
  induction ns generalizing q with
  | nil => rfl
  | cons n ns ih =>
    rw [unravel, unravel]
    have h1 : q * (n :: ns).prod + r = (q * n) * ns.prod + r := by
      rw [List.prod_cons, mul_assoc]
    rw [h1, ih]
    congr 1
    by_cases h0 : ns.prod = 0
    · simp [h0]
    · rw [mul_comm (q * n), Nat.mul_add_div (Nat.pos_of_ne_zero h0), Nat.mul_add_mod_self_right]

theorem unravel_ravel {shape idx : List Nat} (h : InShape shape idx) :
    unravel shape (ravel shape idx) = idx := by
  induction h with
  | nil => rfl
  | @cons i n is ns hi hs ih =>
    rw [ravel, unravel, unravel_add_mul, ih]
    have hlt := ravel_lt hs
    have h0 : 0 < ns.prod := by omega
    rw [mul_comm, Nat.mul_add_div h0, Nat.div_eq_of_lt hlt, add_zero, Nat.mod_eq_of_lt hi]

theorem inShape_unravel {shape : List Nat} {r : Nat} (h : r < shape.prod) :
    InShape shape (unravel shape r) := by
  induction shape generalizing r with
  | nil => exact .nil
  | cons n ns ih =>
    rw [List.prod_cons] at h
    have h0 : 0 < ns.prod := Nat.pos_of_ne_zero fun h' => by simp [h'] at h
    have hn : 0 < n := Nat.pos_of_ne_zero fun h' => by simp [h'] at h
    refine .cons (Nat.mod_lt _ hn) ?_
    have : unravel ns r = unravel ns (r % ns.prod) := by
      conv_lhs => rw [← Nat.div_add_mod r ns.prod, mul_comm]
      exact unravel_add_mul ..
    rw [this]
    exact ih (Nat.mod_lt _ h0)

theorem ravel_unravel {shape : List Nat} {r : Nat} (h : r < shape.prod) :
    ravel shape (unravel shape r) = r := by
  induction shape generalizing r with
  | nil => simp only [List.prod_nil] at h; simp [ravel]; omega
  | cons n ns ih =>
    rw [List.prod_cons] at h
    have h0 : 0 < ns.prod := Nat.pos_of_ne_zero fun h' => by simp [h'] at h
    have hq : r / ns.prod < n := Nat.div_lt_of_lt_mul (by rw [mul_comm]; exact h)
    have : unravel ns r = unravel ns (r % ns.prod) := by
      conv_lhs => rw [← Nat.div_add_mod r ns.prod, mul_comm]
      exact unravel_add_mul ..
    rw [unravel, ravel, this, ih (Nat.mod_lt _ h0), Nat.mod_eq_of_lt hq, mul_comm,
      Nat.div_add_mod]

theorem InShape.reverse {shape idx : List Nat} (h : InShape shape idx) :
    InShape shape.reverse idx.reverse := by
  unfold InShape at *
  induction h with
  | nil => exact .nil
  | cons hi _ ih =>
    rw [List.reverse_cons, List.reverse_cons]
    exact List.rel_append ih (.cons hi .nil)

theorem length_unravel (shape : List Nat) (r : Nat) : (unravel shape r).length = shape.length := by
  induction shape with
  | nil => rfl
  | cons n ns ih => simp [unravel, ih]

end BET
