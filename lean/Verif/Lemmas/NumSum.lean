import Verif.Model.Surrogates
import Verif.Lemmas.Mask
import Verif.Lemmas.Split
import Verif.Props.ModelError

/-!
# Sums of floating-point numbers, and the charges of `model_error` on several processes
-/

set_option linter.unusedSectionVars false
set_option linter.unusedSimpArgs false
set_option autoImplicit false

namespace BET

open Spec

variable {K : Type} [Field K] [LinearOrder K]

instance : Add (Num K) := ⟨Num.add⟩

instance : Zero (Num K) := ⟨.fin 0⟩

/-- Numbers, infinities and `nan` form a commutative monoid under addition. -/
instance : AddCommMonoid (Num K) where
  add_assoc a b c := by
    show (a.add b).add c = a.add (b.add c)
    rcases a with _ | _ | a <;> rcases b with _ | _ | b <;> rcases c with _ | _ | c <;>
      (try cases a) <;> (try cases b) <;> (try cases c) <;> simp [Num.add, add_assoc]
  zero_add a := by
    show Num.add (.fin 0) a = a
    cases a <;> simp [Num.add]
  add_zero a := by
    show Num.add a (.fin 0) = a
    cases a <;> simp [Num.add]
  add_comm a b := by
    show Num.add a b = Num.add b a
    rcases a with _ | _ | a <;> rcases b with _ | _ | b <;>
      (try cases a) <;> (try cases b) <;> simp [Num.add, add_comm]
  nsmul := nsmulRec

theorem sumNum_eq (x : List (Num K)) : sumNum x = x.sum := by
  unfold sumNum
  induction x with
  | nil => rfl
  | cons a x ih => rw [List.foldr_cons, ih, List.sum_cons]; rfl

theorem gatherNum_eq (num : Nat) {ptr : Chunks Nat} {ids : Chunks (Num K)} (h : SameShape ptr ids) :
    gatherNum num ptr ids = (List.range num).map (mass ptr.flatten ids.flatten) := by
  unfold gatherNum
  refine List.map_congr_left fun i _ => ?_
  rw [mass_flatten _ _ _ h, sumNum_eq]
  congr 2
  funext c v
  rw [sumNum_eq, maskSel_npEqual_sum]

/-! ### One process with all samples -/

/-- All chunks on one process. -/
def onOne {α : Type} (c : Chunks α) : Chunks α := [c.flatten]

theorem onOne_map {α β : Type} (f : α → β) (a : Chunks α) :
    onOne (a.map fun c => c.map f) = (onOne a).map fun c => c.map f := by
  simp [onOne, List.map_flatten]

theorem onOne_zipWith {α β γ : Type} (f : α → β → γ) {a : Chunks α} {b : Chunks β}
    (h : SameShape a b) : onOne (List.zipWith (List.zipWith f) a b) =
      List.zipWith (List.zipWith f) (onOne a) (onOne b) := by
  simp [onOne, flatten_zipWith_zipWith _ h]

theorem countMask_onOne (m : Chunks Bool) : countMask (onOne m) = countMask m := by
  unfold countMask allreduceSum onOne
  rw [List.map_singleton, List.sum_singleton, List.count_flatten]

theorem sameShape_zip {α β γ : Type} (f : α → β → γ) {a : Chunks α} {b : Chunks β}
    (h : SameShape a b) : SameShape a (List.zipWith (List.zipWith f) a b) := h.zipWith_left f

theorem sameShape_mapBoth {α β : Type} (f : α → β) (a : Chunks α) :
    SameShape a (a.map fun c => c.map f) := by
  unfold SameShape
  rw [List.forall₂_map_right_iff]
  exact List.forall₂_same.mpr fun c _ => by simp

theorem sameShape_eqMask (ptr : Chunks Nat) (i : Nat) : SameShape ptr (eqMask ptr i) :=
  sameShape_mapBoth (fun k => k == i) ptr

theorem errorCells_shape {a b c : Chunks Bool} (h1 : SameShape a b) (h2 : SameShape b c) :
    SameShape b (errorCells a b c) := by
  rw [errorCells_eq a b c h1 h2]
  exact sameShape_zip _ h2

theorem onOne_errorCells {a b c : Chunks Bool} (h1 : SameShape a b) (h2 : SameShape b c) :
    onOne (errorCells a b c) = errorCells (onOne a) (onOne b) (onOne c) := by
  have hs : ∀ {α β : Type} {x : Chunks α} {y : Chunks β}, SameShape x y →
      SameShape (onOne x) (onOne y) := fun h => .cons h.length_flatten .nil
  rw [errorCells_eq a b c h1 h2, errorCells_eq _ _ _ (hs h1) (hs h2)]
  exact onOne_zipWith _ h2

theorem onOne_charge {ids : Chunks (Num K)} {cells : Chunks Bool} (h : SameShape ids cells)
    (er : Num K) : onOne (charge ids cells er) = charge (onOne ids) (onOne cells) er := by
  unfold charge
  rw [countMask_onOne]
  split
  · rfl
  · exact onOne_zipWith _ h

theorem charge_shape {ids : Chunks (Num K)} {cells : Chunks Bool} (h : SameShape ids cells)
    (er : Num K) : SameShape ids (charge ids cells er) := by
  unfold charge
  split
  · exact SameShape.refl _
  · exact sameShape_zip _ h

/-- The estimate and the charges of `calculate_for_sample_set_region_mc` do not depend on how the
points are distributed. -/
theorem modelRegionMc_onOne {inA : Chunks Bool} {io io' : Chunks Nat} (h1 : SameShape inA io)
    (h2 : SameShape io io') (probs : List K) :
    (modelRegionMc inA io io' probs).1 =
      (modelRegionMc (onOne inA) (onOne io) (onOne io') probs).1 ∧
    onOne (modelRegionMc inA io io' probs).2 =
      (modelRegionMc (onOne inA) (onOne io) (onOne io') probs).2 ∧
    SameShape io (modelRegionMc inA io io' probs).2 := by
  unfold modelRegionMc
  have key : ∀ (l : List Nat) (st st' : Num K × Chunks (Num K)), st.1 = st'.1 →
      onOne st.2 = st'.2 → SameShape io st.2 →
      (l.foldl (modelMcStep inA io io' probs) st).1 =
        (l.foldl (modelMcStep (onOne inA) (onOne io) (onOne io') probs) st').1 ∧
      onOne (l.foldl (modelMcStep inA io io' probs) st).2 =
        (l.foldl (modelMcStep (onOne inA) (onOne io) (onOne io') probs) st').2 ∧
      SameShape io (l.foldl (modelMcStep inA io io' probs) st).2 := by
    intro l
    induction l with
    | nil => intro st st' h1 h2 h3; exact ⟨h1, h2, h3⟩
    | cons i l ih =>
      intro st st' e1 e2 e3
      simp only [List.foldl_cons]
      have hm : ∀ p : Chunks Nat, onOne (eqMask p i) = eqMask (onOne p) i :=
        fun p => onOne_map (fun k => k == i) p
      have hAio : SameShape inA (eqMask io i) := h1.trans (sameShape_eqMask io i)
      have hAio' : SameShape inA (eqMask io' i) := (h1.trans h2).trans (sameShape_eqMask io' i)
      have hee : SameShape (eqMask io i) (eqMask io' i) := hAio.symm.trans hAio'
      have hcells : SameShape io (errorCells inA (eqMask io i) (eqMask io' i)) :=
        (sameShape_eqMask io i).trans (errorCells_shape hAio hee)
      have ha : ∀ p : Chunks Nat, SameShape inA (eqMask p i) →
          countMask (andMask (onOne inA) (eqMask (onOne p) i)) =
            countMask (andMask inA (eqMask p i)) := by
        intro p hp
        rw [← hm, ← countMask_onOne (andMask inA (eqMask p i))]
        congr 1
        exact (onOne_zipWith _ hp).symm
      have hc : ∀ p : Chunks Nat, countMask (eqMask (onOne p) i) = countMask (eqMask p i) := by
        intro p
        rw [← hm, countMask_onOne]
      refine ih _ _ ?_ ?_ ?_
      · unfold modelMcStep
        split
        · simp only [ha io hAio, ha io' hAio', hc, e1]
        · exact e1
      · unfold modelMcStep
        split
        · simp only [ha io hAio, ha io' hAio', hc]
          rw [onOne_charge (e3.symm.trans hcells), onOne_errorCells hAio hee, hm, hm, e2]
        · exact e2
      · unfold modelMcStep
        split
        · exact e3.trans (charge_shape (e3.symm.trans hcells) _)
        · exact e3
  exact key _ _ _ rfl (onOne_map _ _) (sameShape_mapBoth _ _)

end BET
