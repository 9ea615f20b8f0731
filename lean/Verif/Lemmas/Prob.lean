import Verif.Lemmas.ProbLoop
import Verif.Lemmas.Split

set_option linter.unusedSectionVars false
set_option linter.unusedSimpArgs false

set_option autoImplicit false

namespace BET

open Spec

theorem maskSelRanks_shape {α : Type} (ptr : Chunks Nat) (w r : Chunks α) (i : Nat)
    (hl : ptr.length = w.length) (h : maskSelRanks w (ptr.map fun c => npEqual c i) = .ok r) :
    SameShape ptr w := by
  unfold maskSelRanks at h
  induction ptr generalizing w r with
  | nil => cases w with
    | nil => exact .nil
    | cons => simp at hl
  | cons a ptr ih =>
    cases w with
    | nil => simp at hl
    | cons b w =>
      simp only [List.map_cons, List.zip_cons_cons, List.mapM_cons] at h
      rw [bind_eq_ok] at h
      obtain ⟨x, hx, h⟩ := h
      rw [bind_eq_ok] at h
      obtain ⟨y, hy, _⟩ := h
      refine .cons ?_ (ih w y (by simpa using hl) hy)
      unfold maskSelE at hx
      split at hx
      · next hlen => simpa [npEqual] using hlen.symm
      · cases hx

variable {K : Type} [Field K] [LinearOrder K]

/-- If `prob` got past a cell of positive probability then every process has as many
volumes as pointers. -/
theorem probLoop_shape {n : Nat} {probs : List K} {ptr : Chunks Nat} {vols : Option (Chunks K)}
    {P : Chunks K} (h : probLoop n (some probs) ptr vols = .ok P) {i : Nat} (hi : i < n) {p : K}
    (hp : probs[i]? = some p) (hpos : 0 < p) :
    ∃ vs, vols = some vs ∧ (ptr.length = vs.length → SameShape ptr vs) := by
  obtain ⟨b, r, hb⟩ := foldlM_ok_mem _ _ _ _ h i (List.mem_range.mpr hi)
  unfold probBody at hb
  simp only [orErr_some, ok_bind] at hb
  have hg : getIdx probs i = .ok p := by simp [getIdx, hp]
  rw [hg] at hb
  simp only [ok_bind, gt_iff_lt, hpos, if_true] at hb
  cases vols with
  | none => simp at hb
  | some vs =>
    refine ⟨vs, rfl, fun hl => ?_⟩
    simp only [orErr_some, ok_bind] at hb
    rw [bind_eq_ok] at hb
    obtain ⟨sel, hsel, _⟩ := hb
    exact maskSelRanks_shape _ _ _ _ hl hsel

namespace SampleSet

/-- What `query` may change: only the cached tree. -/
theorem query_frame {G : Geometry K} {size : Nat} {s s' : SampleSet K} {xs : Chunks (List K)}
    {ptr : Chunks Nat} (h : s.query G size xs = .ok (s', ptr)) :
    s'.glob = { s.glob with kdtreeValues := s'.glob.kdtreeValues } ∧ s'.loc = s.loc ∧
      s'.dim = s.dim ∧ s'.domain = s.domain ∧ s'.kind = s.kind ∧ s'.pNorm = s.pNorm := by
  unfold query at h
  split at h
  · rw [bind_eq_ok] at h
    obtain ⟨t, ht, h⟩ := h
    rw [bind_eq_ok] at h
    obtain ⟨pts, _, h⟩ := h
    rw [pure_eq_ok] at h
    obtain ⟨rfl, _⟩ := Prod.mk.inj h
    unfold ensureTree at ht
    split at ht
    · unfold setKdtree at ht
      rw [bind_eq_ok] at ht
      obtain ⟨v, _, ht⟩ := ht
      rw [pure_eq_ok] at ht
      subst ht
      simp
    · rw [bind_eq_ok] at ht
      obtain ⟨_, _, ht⟩ := ht
      rw [pure_eq_ok] at ht
      subst ht
      simp
  · rw [bind_eq_ok] at h
    obtain ⟨_, _, h⟩ := h
    rw [bind_eq_ok] at h
    obtain ⟨_, _, h⟩ := h
    rw [pure_eq_ok] at h
    obtain ⟨rfl, _⟩ := Prod.mk.inj h
    simp

end SampleSet

/-- What is left of a discretization by `set_io_ptr`. -/
theorem setIoPtr_frame {G : Geometry K} {size : Nat} {d d' : Disc K} {g : Bool}
    (h : d.setIoPtr G size g = .ok d') :
    d'.input = d.input ∧ d'.emInput = d.emInput ∧ d'.iiPtrLocal = d.iiPtrLocal ∧
      ∃ ops ops', d.outputProb = some ops ∧ d'.outputProb = some ops' ∧
        ops'.glob.probabilities = ops.glob.probabilities := by
  unfold Disc.setIoPtr at h
  rw [bind_eq_ok] at h
  obtain ⟨out, _, h⟩ := h
  rw [bind_eq_ok] at h
  obtain ⟨out', _, h⟩ := h
  rw [bind_eq_ok] at h
  obtain ⟨ps, hps, h⟩ := h
  rw [bind_eq_ok] at h
  obtain ⟨x, _, h⟩ := h
  rw [bind_eq_ok] at h
  obtain ⟨⟨ps', ptr⟩, hq, h⟩ := h
  rw [pure_eq_ok] at h
  rw [orErr_eq_ok] at hps
  have hpr : ps'.glob.probabilities = ps.glob.probabilities := by
    rw [(SampleSet.query_frame hq).1]
  subst h
  cases g <;> exact ⟨rfl, rfl, rfl, ps, ps', hps, rfl, hpr⟩

/-- Everything a successful call of `prob` went through. -/
theorem prob_inv {G : Geometry K} {size : Nat} {d d' : Disc K} {g : Bool}
    (h : prob G size d g = .ok d') :
    ∃ inp ops ptr P n, d'.input = some inp ∧ d'.outputProb = some ops ∧
      d'.ioPtrLocal = some ptr ∧ inp.loc.probabilities = some P ∧
      (g = true → inp.glob.probabilities = some P.flatten) ∧
      (∀ probs, ops.glob.probabilities = some probs → probs.length = n) ∧
      probLoop n ops.glob.probabilities ptr inp.loc.volumes = .ok P := by
  unfold prob at h
  rw [bind_eq_ok] at h
  obtain ⟨_, _, h⟩ := h
  rw [bind_eq_ok] at h
  obtain ⟨ops₀, hops₀, h⟩ := h
  rw [orErr_eq_ok] at hops₀
  rw [bind_eq_ok] at h
  obtain ⟨n, hn, h⟩ := h
  rw [bind_eq_ok] at h
  obtain ⟨d₁, hd₁, h⟩ := h
  rw [bind_eq_ok] at h
  obtain ⟨inp₀, _, h⟩ := h
  rw [bind_eq_ok] at h
  obtain ⟨inp₁, _, h⟩ := h
  rw [bind_eq_ok] at h
  obtain ⟨ptr, hptr, h⟩ := h
  rw [orErr_eq_ok] at hptr
  rw [bind_eq_ok] at h
  obtain ⟨ops, hops, h⟩ := h
  rw [orErr_eq_ok] at hops
  rw [bind_eq_ok] at h
  obtain ⟨P, hP, h⟩ := h
  rw [pure_eq_ok] at h
  have hprobs : ops.glob.probabilities = ops₀.glob.probabilities := by
    unfold Disc.ensureIoPtr at hd₁
    split at hd₁
    · obtain ⟨_, _, _, o, o', ho, ho', hoo⟩ := setIoPtr_frame hd₁
      rw [hops₀] at ho
      rw [hops] at ho'
      cases ho; cases ho'
      exact hoo
    · cases hd₁
      rw [hops₀] at hops
      cases hops
      rfl
  have hlen := (SampleSet.checkNum_allLength hn).probabilities
  subst h
  refine ⟨_, ops, ptr, P, n, rfl, hops, hptr, rfl, ?_, ?_, ?_⟩
  · intro hg; simp [hg, getGlobalValues]
  · intro probs hp; exact hlen probs (hprobs ▸ hp)
  · cases g <;> exact hP

end BET
