import Verif.Lemmas.Query

set_option linter.unusedSectionVars false
set_option linter.unusedSimpArgs false

set_option autoImplicit false

namespace BET

open Spec

namespace SampleSet

@[simp] theorem splitArr_some {α : Type} (size : Nat) (xs : List α) (l : Option (Chunks α)) :
    splitArr size (some xs) l = some (arraySplit size xs) := rfl

@[simp] theorem splitArr_none {α : Type} (size : Nat) (l : Option (Chunks α)) :
    splitArr size none l = l := rfl

@[simp] theorem gatherArr_some {α : Type} (c : Chunks α) (g : Option (List α)) :
    gatherArr (some c) g = some c.flatten := rfl

@[simp] theorem gatherArr_none {α : Type} (g : Option (List α)) : gatherArr none g = g := rfl


section
variable {K : Type}

/-- The set with all its global arrays split over the processes. -/
def splitSet (size n : Nat) (s : SampleSet K) : SampleSet K :=
  { s with
    localIndex := some (arraySplit size (List.range n))
    loc := Arrays.map₂ (splitArr size) s.glob s.loc }

/-- `global_to_local` on a consistent set. -/
theorem globalToLocal_ok {s : SampleSet K} {n : Nat} (h : Consistent s n) (size : Nat) :
    s.globalToLocal size = .ok (s.splitSet size n) := by
  unfold globalToLocal
  rw [checkNum_consistent h]
  rfl

theorem localized_none {s : SampleSet K} (size : Nat)
    (hv : s.loc.values = none) : s.localized size = s.globalToLocal size := by
  simp [localized, hv]

theorem localized_some {s : SampleSet K} (size : Nat) {x : Chunks (List K)}
    (hv : s.loc.values = some x) : s.localized size = .ok s := by
  simp [localized, hv]

end

end SampleSet

section prob

variable {K : Type} [Field K] [LinearOrder K]

/-- `set_io_ptr` on a discretization without local output values. -/
theorem setIoPtr_fresh {G : Geometry K} {size : Nat} {d : Disc K} {n m : Nat} {g : Bool}
    {out ops : SampleSet K} (hout : d.output = some out) (houtc : Consistent out n)
    {y : List (List K)} (hy : out.glob.values = some y) (hyl : out.loc.values = none)
    (hops : d.outputProb = some ops) (hready : Ready ops m) :
    ∃ ops', d.setIoPtr G size g = .ok { d with
        output := some (out.splitSet size n)
        outputProb := some ops'
        ioPtrLocal := some (arraySplit size (y.map (ops.cell G)))
        ioPtr := if g then some (arraySplit size (y.map (ops.cell G))).flatten else d.ioPtr } ∧
      Ready ops' m ∧ ops'.cell G = ops.cell G ∧
      ops'.glob.probabilities = ops.glob.probabilities := by
  obtain ⟨ops', hq, hr', hc', _⟩ := SampleSet.query_ready (G := G) (size := size) hready
    (arraySplit size y)
  refine ⟨ops', ?_, hr', hc', ?_⟩
  · unfold Disc.setIoPtr
    have hv : (out.splitSet size n).loc.values = some (arraySplit size y) := by
      simp [SampleSet.splitSet, Arrays.map₂, hy]
    simp only [hout, orErr_some, ok_bind, SampleSet.localized_none size hyl,
      SampleSet.globalToLocal_ok houtc, hops, hv, hq]
    rw [arraySplit_map]
    cases g <;> rfl
  · rw [(SampleSet.query_frame hq).1]

theorem setIiPtr_frame {G : Geometry K} {size : Nat} {d d' : Disc K} {g : Bool}
    (h : d.setIiPtr G size g = .ok d') :
    d'.output = d.output ∧ d'.outputProb = d.outputProb ∧ d'.ioPtr = d.ioPtr ∧
      d'.ioPtrLocal = d.ioPtrLocal := by
  unfold Disc.setIiPtr at h
  rw [bind_eq_ok] at h
  obtain ⟨_, _, h⟩ := h
  rw [bind_eq_ok] at h
  obtain ⟨_, _, h⟩ := h
  rw [bind_eq_ok] at h
  obtain ⟨_, _, h⟩ := h
  rw [bind_eq_ok] at h
  obtain ⟨_, _, h⟩ := h
  rw [bind_eq_ok] at h
  obtain ⟨⟨_, _⟩, _, h⟩ := h
  rw [pure_eq_ok] at h
  subst h
  cases g <;> exact ⟨rfl, rfl, rfl, rfl⟩

/-- `set_emulated_ii_ptr` on a discretization without local emulated values. -/
theorem setIiPtr_fresh {G : Geometry K} {size : Nat} {d : Disc K} {n k : Nat}
    {em inp : SampleSet K} (hem : d.emInput = some em) (hemc : Consistent em k)
    {z : List (List K)} (hz : em.glob.values = some z) (hzl : em.loc.values = none)
    (hinp : d.input = some inp) (hready : Ready inp n) :
    ∃ inp', d.setIiPtr G size false = .ok { d with
        emInput := some (em.splitSet size k)
        input := some inp'
        iiPtrLocal := some (arraySplit size (z.map (inp.cell G))) } ∧
      Ready inp' n ∧ inp'.cell G = inp.cell G := by
  obtain ⟨inp', hq, hr', hc', _⟩ := SampleSet.query_ready (G := G) (size := size) hready
    (arraySplit size z)
  refine ⟨inp', ?_, hr', hc'⟩
  unfold Disc.setIiPtr
  have hv : (em.splitSet size k).loc.values = some (arraySplit size z) := by
    simp [SampleSet.splitSet, Arrays.map₂, hz]
  simp only [hem, orErr_some, ok_bind, SampleSet.localized_none size hzl,
    SampleSet.globalToLocal_ok hemc, hinp, hv, hq]
  rw [arraySplit_map]
  rfl

theorem composePtr_ok (io : List Nat) (ii : Chunks Nat) (h : ∀ s ∈ ii.flatten, s < io.length) :
    composePtr io ii = .ok (ii.map fun c => c.map fun s => io.getD s 0) := by
  unfold composePtr
  refine mapM_ok _ _ _ fun c hc => mapM_ok _ _ _ fun s hs => ?_
  have : s < io.length := h s (List.mem_flatten.mpr ⟨c, hc, hs⟩)
  simp [getIdx, this]

theorem composePtr_inv {io : List Nat} {ii ptr : Chunks Nat} (h : composePtr io ii = .ok ptr) :
    ptr = (ii.map fun c => c.map fun s => io.getD s 0) ∧ ∀ s ∈ ii.flatten, s < io.length := by
  have hall : ∀ s ∈ ii.flatten, s < io.length := by
    intro s hs
    obtain ⟨c, hc, hs⟩ := List.mem_flatten.mp hs
    obtain ⟨y, hy⟩ := mapM_ok_mem _ _ _ h c hc
    obtain ⟨z, hz⟩ := mapM_ok_mem _ _ _ hy s hs
    by_contra hlt
    simp [getIdx, show io.length ≤ s by omega] at hz
  rw [composePtr_ok io ii hall] at h
  cases h
  exact ⟨rfl, hall⟩

end prob

end BET
