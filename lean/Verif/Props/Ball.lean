import Verif.Props.Rectangle
import Verif.Model.BallVolume
import Mathlib.MeasureTheory.Measure.Lebesgue.VolumeOfBalls

/-!
# C66: volumes of balls
-/

set_option linter.unusedSectionVars false
set_option linter.unusedSimpArgs false
set_option autoImplicit false

namespace BET

open Spec MeasureTheory

/-- The open ball of radius `r` in the `p`-norm around `c`. -/
def Spec.lpBall (d : Nat) (p : ℝ) (c : Fin d → ℝ) (r : ℝ) : Set (Fin d → ℝ) :=
  {x | (∑ i, |x i - c i| ^ p) ^ (1 / p) < r}

theorem volume_lpBall {d : Nat} (hd : 0 < d) {p : ℝ} (hp : 1 ≤ p) (c : Fin d → ℝ) (r : ℝ) :
    volume (lpBall d p c r) = ENNReal.ofReal r ^ d *
      ENNReal.ofReal ((2 * Real.Gamma (1 / p + 1)) ^ d / Real.Gamma (d / p + 1)) := by
  have : Nonempty (Fin d) := ⟨⟨0, hd⟩⟩
  have h := volume_sum_rpow_lt (ι := Fin d) hp r
  rw [Fintype.card_fin] at h
  rw [← h]
  have : lpBall d p c r = (fun x => x - c) ⁻¹' {x : Fin d → ℝ | (∑ i, |x i| ^ p) ^ (1 / p) < r} := by
    ext x; simp [lpBall]
  rw [this]
  exact (measurePreserving_sub_right volume c).measure_preimage_equiv
    (f := MeasurableEquiv.subRight c) _

/-- **C66.** After `setup`, `exact_volume` of a ball set gives every ball the Lebesgue measure
of its points in the chosen norm divided by the measure of the domain (whether or not the ball
sticks out of it), and the last entry what is left, so the volumes sum to 1. -/
theorem C66_ball_volumes {s t : SampleSet ℝ} {centers : List (List ℝ)} {radii : List ℝ}
    (hs : s.glob = {}) (hdim : 0 < s.dim) (hp : 1 ≤ s.pNorm)
    (hset : s.setupBall centers radii = .ok t)
    {dom : List (ℝ × ℝ)} (hdom : s.domain = some dom) (hd : dom.length = s.dim)
    (hpos : ∀ d ∈ dom, d.1 < d.2) (hr : ∀ r ∈ radii, 0 ≤ r) (size : Nat) :
    ∃ u vols, t.exactVolumeBall size = .ok u ∧
      u = { t with glob := { t.glob with volumes := some vols } } ∧
      vols.length = centers.length + 1 ∧
      (∀ (i : Nat) c r, centers[i]? = some c → radii[i]? = some r →
        vols[i]? = some ((volume (lpBall s.dim s.pNorm (fun k => c.getD k 0) r)).toReal /
          (volume (domainSet s.dim dom)).toReal)) ∧
      vols.sum = 1 := by
  simp only [SampleSet.setupBall, bind_eq_ok, raiseIf_eq_ok, pure_eq_ok] at hset
  obtain ⟨_, h1, _, h2, rfl⟩ := hset
  simp only [ne_eq, not_not, List.all_eq_true, beq_iff_eq] at h1 h2
  set vols := radii.map (SampleSet.ballVolume s.dim s.pNorm (domainVolume dom)) with hvols
  refine ⟨_, vols ++ [1 - vols.sum], ?_, rfl, by simp [hvols, h1], ?_, by simp⟩
  · unfold SampleSet.exactVolumeBall
    rw [SampleSet.checkNum_consistent (n := centers.length + 1)]
    · simp only [ok_bind, hdom, orErr_some, hvols, domainVolume, List.dropLast_concat]
      rfl
    · refine ⟨?_, fun h => (by have := h.values; cases this), ?_⟩
      · constructor <;> simp [hs, h1]
      · intro v hv row hrow
        simp only [Option.some.injEq] at hv
        subst hv
        rcases List.mem_append.mp hrow with hr | hr
        · exact h2 _ hr
        · simp only [List.mem_singleton] at hr; subst hr; simp
  · intro i c r hc hri
    have hi : i < vols.length := by
      have := (List.getElem?_eq_some_iff.mp hri).1
      simpa [hvols] using this
    rw [List.getElem?_append_left hi, hvols, List.getElem?_map, hri, Option.map_some]
    have hp' : (1 : ℝ) ≤ (s.pNorm : ℝ) := by exact_mod_cast hp
    have hr0 := hr r (List.mem_of_getElem? hri)
    rw [volume_lpBall hdim hp', volume_domainSet hd hpos,
      ENNReal.toReal_ofReal (domainVolume_pos hpos).le, ENNReal.toReal_mul, ENNReal.toReal_pow,
      ENNReal.toReal_ofReal hr0, ENNReal.toReal_ofReal]
    · unfold SampleSet.ballVolume
      rw [mul_pow, add_comm (1 / (s.pNorm : ℝ)), add_comm ((s.dim : ℝ) / (s.pNorm : ℝ))]
      congr 1
      ring
    · have hg1 : 0 < Real.Gamma (1 / (s.pNorm : ℝ) + 1) := Real.Gamma_pos_of_pos (by positivity)
      have hg2 : 0 < Real.Gamma ((s.dim : ℝ) / (s.pNorm : ℝ) + 1) :=
        Real.Gamma_pos_of_pos (by positivity)
      positivity

/-- C66: one ball in the square. -/
example : ∃ t, ({ dim := 2, domain := some [(0, 4), (0, 4)] } : SampleSet ℝ).setupBall
    [[2, 2]] [1] = .ok t := ⟨_, by
  unfold SampleSet.setupBall
  simp [raiseIf]
  rfl⟩

/-- C23: one rectangle in the interval. -/
example : ∃ t, ({ dim := 1, domain := some [(0, 1)] } : SampleSet ℝ).setupRect [[1/2]] [[0]] = .ok t ∧
    List.Forall₂ (List.Forall₂ (· ≤ ·)) [[(0 : ℝ)]] [[1/2]] ∧
    boxSet 1 [0] [1/2] ⊆ domainSet 1 [((0 : ℝ), 1)] := by
  refine ⟨_, setupRect_iff.mpr ⟨rfl, by simp, by simp, rfl⟩, by norm_num, ?_⟩
  unfold domainSet
  rw [boxSet_eq_pi (d := 1) (l := [0]) (r := [1 / 2]) rfl rfl,
    boxSet_eq_pi (d := 1) (l := List.map Prod.fst [((0 : ℝ), (1 : ℝ))]) rfl rfl]
  refine Set.pi_mono fun i _ => ?_
  fin_cases i
  exact Set.Ioc_subset_Ioc (le_refl _) (by norm_num)

end BET
