import Verif.Model.SamplerCaught
import Verif.Model.SpmdError

/-!
# A sampler on several processes that run at their own speed

The functions of /repo/bet/sampling/basicSampling.py as programs of one process (`Model.Spmd`): a process
draws its own numbers, calls the model for its own samples, and meets the others in collectives.
-/

set_option autoImplicit false

namespace BET

section
variable {K : Type}

/-- What process `r` has of the sets of a program. -/
def SamplerState.view (r : Nat) (m : SamplerState K) : SamplerState K :=
  { m with heap := m.heap.map (SampleSet.view r) }

end

section
variable {K : Type} [Field K] [LinearOrder K]

namespace SampleSet

/-- The end of `random_sample_set` and `lhs_sample_set` (/repo/bet/sampling/basicSampling.py:178-181 and
230-233), and 515-519 for the input set, on one process. -/
def procGlobalizeIf (globalize : Bool) (s : SampleSet K) : Proc (Msg K) (SampleSet K) :=
  if globalize then s.procLocalToGlobal
  else pure { s with glob := { s.glob with values := none } }

/-- /repo/bet/sampling/basicSampling.py:139-182 `random_sample_set` on one process: it draws its own
part of the samples. -/
def procRandom (st : Stats K) (rank size : Nat) (rv : RvArg K) (n : Nat) (globalize : Bool)
    (s : SampleSet K) : Proc (Msg K) (SampleSet K) := do
  let specs ← Proc.ofExcept (rv.perDim s.dim s.domain)
  let mine ← Proc.ofExcept (drawLocal st specs (numLocal n size rank) rank)
  let domain ← Proc.ofExcept (specs.mapM st.interval)
  let s ← Proc.ofExcept (s.setValuesLocal [mine])
  let s := { s with domain := some domain }
  let _ ← Proc.ofExcept (s.checkNumLocal 0)
  let _ ← s.procCheckNum
  let _ ← barrierM
  s.procGlobalizeIf globalize

/-- /repo/bet/sampling/basicSampling.py:216-238 `lhs_sample_set` on one process: `cube` is the same on
all processes, as in `lhsSampleSet`. -/
def procLhs (rank size : Nat) (cube : List (List K)) (globalize : Bool) (s : SampleSet K) :
    Proc (Msg K) (SampleSet K) := do
  let s := { s with domain := some (domainOrUnit s) }
  let s ← Proc.ofExcept (s.updateBounds cube.length)
  let s ← Proc.ofExcept (s.setValuesLocal [(arraySplit size (lhsValues cube s)).getD rank []])
  let _ ← barrierM
  s.procGlobalizeIf globalize

/-- /repo/bet/sampling/basicSampling.py:273-313 `regular_sample_set` on one process. -/
def procRegular (rank size : Nat) (nums : GridNums) (s : SampleSet K) :
    Proc (Msg K) (SampleSet K) := do
  let ns := nums.perDim s.dim
  let _ ← Proc.ofExcept (raiseIf (ns.length < s.dim) .indexError)
  let domain := domainOrUnit s
  let vecs := List.zipWith gridVec (domain.take s.dim) ns
  let num := (vecs.map List.length).prod
  let values ← Proc.ofExcept (assignGrid ns.prod (stackColumns num ((List.range s.dim).map (meshComponent vecs))))
  let s ← Proc.ofExcept ({ s with domain := some domain }.setValues values)
  s.procGlobalToLocal rank size

/-- /repo/bet/sampling/basicSampling.py:461-532 on one process: the model is called for its samples. The
input and the output set. -/
def procCompute (S : SamplerModel K) (B : Breakdown K) (rank : Nat) (globalize : Bool)
    (s : SampleSet K) : Proc (Msg K) (SampleSet K × SampleSet K) := do
  let s ← s.procLocalized rank S.size
  let x ← Proc.ofExcept (orErr .attributeError s.loc.values)
  let o ← Proc.ofExcept (modelReply S B rank x.flatten)
  let out ← Proc.ofExcept (({ dim := S.outDim } : SampleSet K).setValuesLocal [o.1])
  let q ← Proc.ofExcept (mapReference B.ref S.outDim s.referenceValue)
  let out ← Proc.ofExcept (withErrors S.ee [o.2.1] { out with referenceValue := q })
  let s ← Proc.ofExcept (withJacobians S.jac [o.2.2] s)
  let s ← s.procGlobalizeIf globalize
  let out ← Disc.procIfGlobal globalize out
  let _ ← barrierM
  let _ ← procDiscNew (some s) (some out) none none none
  let _ ← barrierM
  let _ ← barrierM
  pure (s, out)

end SampleSet

namespace SamplerState

/-- `s.local_to_global()` for one object, on one process. -/
def procGlobalizeAt (a : Nat) (m : SamplerState K) : Proc (Msg K) (SamplerState K) :=
  match m.heap[a]? with
  | none => pure m
  | some s => do
      let t ← s.procLocalToGlobal
      pure { m with heap := m.heap.set a t }

/-- `if self.input_sample_set is not None: …` (/repo/bet/sampling/basicSampling.py:343-344) on one
process. -/
def procGlobalizeCurrent (m : SamplerState K) : Proc (Msg K) (SamplerState K) :=
  match m.current with
  | none => pure m
  | some a => m.procGlobalizeAt a

/-- `if self.discretization is not None: …` (/repo/bet/sampling/basicSampling.py:345-346,
/repo/bet/sample.py:2819-2833) on one process. -/
def procGlobalizeDisc (m : SamplerState K) : Proc (Msg K) (SamplerState K) :=
  match m.discs.getLast? with
  | none => pure m
  | some d => do
      let m ← m.procGlobalizeAt d.1
      m.procGlobalizeAt d.2

/-- A call on a sampler (/repo/bet/sampling/basicSampling.py:339-532) on one process. -/
def procExec (S : SamplerModel K) (B : Breakdown K) (rank : Nat) (m : SamplerState K) :
    SamplerCall K → Proc (Msg K) (SamplerState K)
  | .newSet s => pure { m with heap := m.heap ++ [s.view rank] }
  | .random st rv obj n globalize => do
      let x ← Proc.ofExcept (m.resolve obj)
      let s ← Proc.ofExcept (x.toSet .wrongInput)
      let t ← s.procRandom st rank S.size rv n globalize
      pure (m.put t obj)
  | .lhs obj cube globalize => do
      let x ← Proc.ofExcept (m.resolve obj)
      let s ← Proc.ofExcept (x.toSet .unboundLocal)
      let t ← s.procLhs rank S.size cube globalize
      pure (m.put t obj)
  | .regular obj nums => do
      let x ← Proc.ofExcept (m.resolve obj)
      let s ← Proc.ofExcept (x.toSet .badObject)
      let t ← s.procRegular rank S.size nums
      pure (m.put t .other)
  | .compute input globalize => do
      let a ← Proc.ofExcept (orErr .attributeError (input.or m.current))
      let s ← Proc.ofExcept (getIdx m.heap a)
      let q ← s.procCompute S B rank globalize
      pure ⟨m.heap.set a q.1 ++ [q.2], some a, m.discs ++ [(a, m.heap.length)]⟩
  | .localToGlobal => do
      let m ← m.procGlobalizeCurrent
      m.procGlobalizeDisc

/-- A program of calls on one process; the first exception ends it. -/
def procRun (S : SamplerModel K) (rank : Nat) (m : SamplerState K)
    (cs : List (SamplerCall K × Breakdown K)) : Proc (Msg K) (SamplerState K) :=
  cs.foldlM (fun m c => m.procExec S c.2 rank c.1) m

end SamplerState

end

end BET
