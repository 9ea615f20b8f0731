import Verif.Props.Surrogates
import Verif.Props.Volumes
import Verif.Props.Choose
import Verif.Lemmas.NumSum
import Verif.Lemmas.Fresh

/-!
# C49: solving the inverse problem with a surrogate
-/

set_option linter.unusedSectionVars false
set_option linter.unusedSimpArgs false
set_option autoImplicit false

namespace BET

open Spec

variable {K : Type} [Field K] [LinearOrder K]

/-! ### The values of a surrogate, for either order -/

/-- What a surrogate can be made of: outputs, and for order 1 Jacobians with a row for every
output. -/
def Spec.CanGenerate (inp out : SampleSet K) (order : Nat) : Prop :=
  out.glob.values.isSome ∧ (order = 0 ∨ order = 1 ∧
    ∃ jac, inp.glob.jacobians = some jac ∧ ∀ J ∈ jac, J.length = out.dim)

/-- The surrogate's value at `x`. -/
def surrogateValue (G : Geometry K) (inp out : SampleSet K) (order : Nat) (x : List K) : List K :=
  if order = 0 then (out.glob.values.getD []).getD (inp.cell G x) []
  else linearValue ((out.glob.values.getD []).getD (inp.cell G x) [])
    ((inp.glob.jacobians.getD []).getD (inp.cell G x) [])
    ((inp.glob.values.getD []).getD (inp.cell G x) []) x

theorem surrogateValues_fresh {G : Geometry K} (hG : Sound G) {inp out : SampleSet K} {m order : Nat}
    (hr : Ready inp m) (hoc : Consistent out m) (hc : CanGenerate inp out order)
    (u : List (List K)) :
    (∀ x ∈ u, (surrogateValue G inp out order x).length = out.dim) ∧
    ∀ size, surrogateValues order inp out (arraySplit size u)
      (arraySplit size (u.map (inp.cell G))) =
      .ok (arraySplit size (u.map (surrogateValue G inp out order))) := by
  obtain ⟨hy, hord⟩ := hc
  obtain ⟨y, hy⟩ := Option.isSome_iff_exists.1 hy
  obtain ⟨v, hv, hvl⟩ := SampleSet.ready_values hr
  have hyl := hoc.1.values y hy
  have h1 : ∀ x, (y.getD (inp.cell G x) []).length = out.dim := by
    intro x
    have hlt := SampleSet.cell_lt hG hr x
    rw [List.getD_eq_getElem?_getD, List.getElem?_eq_getElem (by omega)]
    have := hoc.2.2
    rw [hy] at this
    exact this _ rfl _ (List.getElem_mem _)
  have hlt : ∀ (size a : Nat), a = m → ∀ c ∈ arraySplit size u, ∀ x ∈ c, inp.cell G x < a :=
    fun _ a ha _ _ x _ => ha ▸ SampleSet.cell_lt hG hr x
  rcases hord with rfl | ⟨rfl, jac, hj, hjd⟩
  · have hf : surrogateValue G inp out 0 = fun x => y.getD (inp.cell G x) [] := by
      funext x
      simp [surrogateValue, hy]
    rw [hf]
    refine ⟨fun x _ => h1 x, fun size => ?_⟩
    simp only [surrogateValues, hy, orErr_some, ok_bind, if_true]
    rw [arraySplit_map, takeRows_map y [] (inp.cell G) (arraySplit size u) (hlt _ _ hyl),
      ← arraySplit_map]
  · have hjl := hr.consistent.1.jacobians jac hj
    have hf : surrogateValue G inp out 1 = fun x => linearValue (y.getD (inp.cell G x) [])
        (jac.getD (inp.cell G x) []) (v.getD (inp.cell G x) []) x := by
      funext x
      simp [surrogateValue, hy, hj, hv]
    rw [hf]
    refine ⟨fun x _ => ?_, fun size => ?_⟩
    · have hlt := SampleSet.cell_lt hG hr x
      have h2 : (jac.getD (inp.cell G x) []).length = out.dim := by
        rw [List.getD_eq_getElem?_getD, List.getElem?_eq_getElem (by omega)]
        exact hjd _ (List.getElem_mem _)
      show (linearValue _ _ _ _).length = _
      rw [linearValue, List.length_zipWith, jacApply, List.length_map, h1, h2, min_self]
    · simp only [surrogateValues, hy, orErr_some, ok_bind, one_ne_zero, if_false,
        surrogateJacobians, hj, Option.isNone_some, Bool.false_eq_true, hv]
      rw [arraySplit_map, takeRows_map jac [] (inp.cell G) (arraySplit size u) (hlt _ _ hjl)]
      simp only [ok_bind]
      rw [takeRows_map v [] (inp.cell G) (arraySplit size u) (hlt _ _ hvl)]
      simp only [ok_bind]
      rw [takeRows_map y [] (inp.cell G) (arraySplit size u) (hlt _ _ hyl)]
      simp only [ok_bind]
      rw [arraySplit_map]
      show Except.ok _ = _
      congr 1
      unfold linearValues
      generalize arraySplit size u = us
      induction us with
      | nil => rfl
      | cons c us ih =>
        simp only [List.map_cons, List.zipWith_cons_cons, ih]
        congr 1
        induction c with
        | nil => rfl
        | cons x c ih' =>
          simp only [List.map_cons, List.zip_cons_cons, List.zipWith_cons_cons]
          exact congrArg _ ih'

/-! ### Volumes -/

theorem checkNumLocal_split {s : SampleSet K} (hc : HasCols s.dim s.glob.values) {ns : List Nat}
    (hl : AllShape s.loc ns) (hsome : ¬ NonePresent s.loc) (r : Nat) :
    s.checkNumLocal r = .ok (some (ns.getD r 0)) := by
  have h := (checkNumLocal_ok (s := { s with glob := {} }) (by constructor <;> rfl) hl hsome r).1
  unfold SampleSet.checkNumLocal at h ⊢
  simp only [show SampleSet.colsOk s.dim (none : Option (List (List K))) = true from rfl,
    if_true] at h
  simp only [(SampleSet.colsOk_iff _ _).2 hc, if_true]
  exact h

theorem allShape_split {s : SampleSet K} {n size : Nat} (hs : Consistent s n) (hl : s.loc = {}) :
    AllShape (s.splitSet size n).loc ((arraySplit size (List.range n)).map List.length) := by
  have key : ∀ {α : Type} (o : Option (List α)) (v : Chunks α), (∀ x, o = some x → x.length = n) →
      SampleSet.splitArr size o none = some v →
      v.map List.length = (arraySplit size (List.range n)).map List.length := by
    intro α o v ho hv
    cases o with
    | none => cases hv
    | some x =>
      cases hv
      have := arraySplit_sameShape size x (List.range n) (by simp [ho x rfl])
      rwa [sameShape_iff] at this
  have ha := hs.1
  unfold SampleSet.splitSet
  rw [hl]
  constructor <;> intro v hv
  · exact key _ _ ha.values hv
  · exact key _ _ ha.volumes hv
  · exact key _ _ ha.probabilities hv
  · exact key _ _ ha.densities hv
  · exact key _ _ ha.jacobians hv
  · exact key _ _ ha.errorEstimates hv
  · exact key _ _ ha.right hv
  · exact key _ _ ha.left hv
  · exact key _ _ ha.width hv
  · exact key _ _ ha.kdtreeValues hv
  · exact key _ _ ha.radii hv
  · exact key _ _ ha.normalizedRadii hv
  · exact key _ _ ha.region hv
  · exact key _ _ ha.errorId hv

/-- The volumes the surrogate works with: given ones, or `1/n` for each sample. -/
def surrogateVolumes (new : SampleSet K) (k : Nat) : List K :=
  new.glob.volumes.getD (List.replicate k (1 / (k : K) * 1))

theorem arraySplit_replicate {size k : Nat} (c : K) :
    (List.range size).map (fun r => List.replicate
      (((arraySplit size (List.range k)).map List.length).getD r 0) c) =
      arraySplit size (List.replicate k c) := by
  have h1 : List.replicate k c = (List.range k).map fun _ => c := by simp
  rw [h1, arraySplit_map]
  refine List.ext_getElem (by simp [length_arraySplit]) fun i h h' => ?_
  have hi : i < (arraySplit size (List.range k)).length := by simpa using h'
  rw [List.getElem_map, List.getElem_map, List.getElem_range, List.getD_eq_getElem?_getD,
    List.getElem?_map, List.getElem?_eq_getElem hi]
  simp

theorem ensureVolumesMc_fresh {size k : Nat} {new : SampleSet K}
    (hnew : Consistent new k) (hloc : new.loc = {}) {u : List (List K)}
    (hu : new.glob.values = some u) (hk : 0 < k ∨ new.glob.volumes.isSome) (d : Disc K)
    (hd : d.input = some (new.splitSet size k)) :
    ∃ s, ensureVolumesMc size d = .ok { d with input := some s } ∧ Consistent s k ∧
      s.dim = new.dim ∧
      s.loc.values = some (arraySplit size u) ∧
      s.loc.volumes = some (arraySplit size (surrogateVolumes new k)) ∧ s.glob = new.glob := by
  have hc : Consistent (new.splitSet size k) k := hnew
  have hv : (new.splitSet size k).loc.values = some (arraySplit size u) := by
    simp [SampleSet.splitSet, Arrays.map₂, hu]
  have hvol : (new.splitSet size k).loc.volumes = new.glob.volumes.map (arraySplit size) := by
    simp only [SampleSet.splitSet, Arrays.map₂, hloc]
    cases new.glob.volumes <;> rfl
  cases hvs : new.glob.volumes with
  | some w =>
    refine ⟨new.splitSet size k, ?_, hc, rfl, hv, ?_, rfl⟩
    · simp only [ensureVolumesMc, hd, orErr_some, ok_bind, hvol, hvs, Option.map_some,
        Option.isNone_some, Bool.false_eq_true, if_false]
      cases d
      simp only at hd
      rw [hd]
      rfl
    · rw [hvol, surrogateVolumes, hvs]
      rfl
  | none =>
    have hk0 : k ≠ 0 := by
      rcases hk with h | h
      · omega
      · rw [hvs] at h; cases h
    have hloc' : ∀ r, (new.splitSet size k).checkNumLocal r = .ok (some
        (((arraySplit size (List.range k)).map List.length).getD r 0)) :=
      checkNumLocal_split hc.2.2 (allShape_split hnew hloc) (fun h => by
        have := h.values
        rw [hv] at this
        cases this)
    have hm : ((List.range size).mapM fun r => do
        let n ← (new.splitSet size k).checkNumLocal r
        let n ← orErr Err.typeError n
        pure (List.replicate n (1 / (k : K) * 1)) : Except Err _) =
        .ok (arraySplit size (List.replicate k (1 / (k : K) * 1))) := by
      rw [mapM_ok _ (fun r => List.replicate
        (((arraySplit size (List.range k)).map List.length).getD r 0) (1 / (k : K) * 1)) _
        (fun r _ => by rw [hloc' r]; rfl), arraySplit_replicate]
    refine ⟨{ new.splitSet size k with loc := { (new.splitSet size k).loc with
      volumes := some (arraySplit size (List.replicate k (1 / (k : K) * 1))) } }, ?_, hc, rfl, hv, ?_,
      rfl⟩
    · simp only [ensureVolumesMc, hd, orErr_some, ok_bind, hvol, hvs, Option.map_none,
        Option.isNone_none, if_true, SampleSet.estimateVolumeMc, SampleSet.checkNum_consistent hc,
        Bool.false_eq_true, if_false, hm, pure_bind_ok, raiseIf, hk0]
      rfl
    · simp [surrogateVolumes, hvs]

/-! ### The surrogate's probabilities -/

/-- The probability of each surrogate sample: `io` its output cell, `probs` the output
probabilities. -/
def surrogateProb (n : Nat) (probs : List K) (io : List Nat) (vols : List K) : List K :=
  List.zipWith (fun j v => if j < n ∧ probs.getD j 0 > 0 ∧ mass io vols j > 0 then
    probs.getD j 0 * v / mass io vols j else 0) io vols

theorem zipWith_arraySplit {α β γ : Type} {size : Nat} (hsize : 0 < size) (g : α → β → γ)
    (a : List α) (b : List β) (h : a.length = b.length) :
    List.zipWith (List.zipWith g) (arraySplit size a) (arraySplit size b) =
      arraySplit size (List.zipWith g a b) := by
  have hss := arraySplit_sameShape size a b h
  refine eq_of_flatten_eq ?_ ?_
  · refine (hss.zipWith_left _).symm.trans (arraySplit_sameShape size _ _ ?_)
    simp [h]
  · rw [flatten_zipWith_zipWith _ hss, flatten_arraySplit _ _ hsize,
      flatten_arraySplit _ _ hsize, flatten_arraySplit _ _ hsize]

/-- The surrogate's discretization once its probabilities are known: `u` are the points, `f` their
outputs, `e` their error estimates, `P` their probabilities, `cellO` the cells of the output
probability set and `probs` its probabilities. -/
structure SurrStage (G : Geometry K) (size k dimI dimO mo : Nat) (u : List (List K))
    (f e : List K → List K) (P : List K) (cellO : List K → Nat) (probs : List K) (d : Disc K) :
    Prop where
  inp : ∃ s, d.input = some s ∧ Consistent s k ∧ s.dim = dimI ∧
    s.loc.values = some (arraySplit size u) ∧ s.loc.probabilities = some (arraySplit size P)
  out : ∃ li, d.output = some (surrogateOutput dimO (arraySplit size (u.map f))
    (some (arraySplit size (u.map e))) li)
  ops : ∃ o, d.outputProb = some o ∧ Ready o mo ∧ o.cell G = cellO ∧
    o.glob.probabilities = some probs
  io : d.ioPtrLocal = some (arraySplit size (u.map fun x => cellO (f x)))

theorem prob_surrogate {G : Geometry K} {size k dimI dimO mo : Nat} (hsize : 0 < size)
    {u : List (List K)} {f e : List K → List K} {vols : List K} {probs : List K} {d : Disc K}
    {s ops : SampleSet K} (hs : d.input = some s) (hsc : Consistent s k) (hsd : s.dim = dimI)
    (hsv : s.loc.values = some (arraySplit size u)) (hsw : s.loc.volumes = some (arraySplit size vols))
    (huv : u.length = vols.length)
    (hout : d.output = some (surrogateOutput dimO (arraySplit size (u.map f))
      (some (arraySplit size (u.map e)))))
    (hops : d.outputProb = some ops) (hr : Ready ops mo) (hp : ops.glob.probabilities = some probs)
    (hio : d.ioPtrLocal = none) :
    ∃ d', prob G size d false = .ok d' ∧
      SurrStage G size k dimI dimO mo u f e
        (surrogateProb mo probs (u.map fun x => ops.cell G (f x)) vols) (ops.cell G) probs d' := by
  have hck := checkNum_localOnly (size := size) (dim := dimO) u hsize f e true
  have hlv : (surrogateOutput dimO (arraySplit size (u.map f))
      (some (arraySplit size (u.map e)))).loc.values = some (arraySplit size (u.map f)) := rfl
  obtain ⟨ops', hq, hr', hcell, -⟩ := SampleSet.query_ready (G := G) (size := size) hr
    (arraySplit size (u.map f))
  have hfr := SampleSet.query_frame hq
  have hp' : ops'.glob.probabilities = some probs := by rw [hfr.1]; exact hp
  have hptr : ((arraySplit size (u.map f)).map fun c => c.map (ops.cell G)) =
      arraySplit size (u.map fun x => ops.cell G (f x)) := by
    rw [← arraySplit_map, List.map_map]
    rfl
  rw [hptr] at hq
  have hloop := probLoop_eq probs (arraySplit size (u.map fun x => ops.cell G (f x)))
    (arraySplit size vols) mo (arraySplit_sameShape size _ _ (by simpa using huv))
    (hr.consistent.1.probabilities probs hp).ge
  rw [flatten_arraySplit _ _ hsize, flatten_arraySplit _ _ hsize,
    zipWith_arraySplit hsize _ _ _ (by simpa using huv)] at hloop
  have hcn : d.checkNums size = .ok k := by
    unfold Disc.checkNums
    simp only [hs, hout, orErr_some, ok_bind]
    have hck' : (surrogateOutput dimO (arraySplit size (u.map f))
      (some (arraySplit size (u.map e)))).checkNum size = .ok u.length := hck
    rw [hck']
    simp only [ok_bind, SampleSet.checkNum_consistent hsc]
    rw [if_neg (by simp [surrogateOutput])]
    rfl
  have hrun : prob G size d false = .ok { d with
      input := some { s with
        loc := { s.loc with probabilities := some (arraySplit size
          (surrogateProb mo probs (u.map fun x => ops.cell G (f x)) vols)) }
        probType := some .voronoi }
      outputProb := some ops'
      ioPtrLocal := some (arraySplit size (u.map fun x => ops.cell G (f x))) } := by
    unfold prob
    simp only [hcn, ok_bind, hops, orErr_some, SampleSet.checkNum_consistent hr.consistent,
      Disc.ensureIoPtr, hio, Option.isNone_none, if_true, Disc.setIoPtr, hout,
      SampleSet.localized_some size hlv, hlv, hq, pure_bind_ok, Bool.false_eq_true, if_false, hs,
      SampleSet.localized_some size hsv, hp', hsw, hloop]
    rfl
  refine ⟨_, hrun, ⟨_, rfl, hsc, hsd, hsv, rfl⟩, ⟨none, hout⟩, ⟨ops', rfl, hr', hcell, hp'⟩, rfl⟩

/-! ### The cells of the set that defines the regions -/

theorem ready_setProbs {s : SampleSet K} {m : Nat} (h : Ready s m) {p : List K} (hp : p.length = m)
    (t : Option ProbType) :
    Ready { s with glob := { s.glob with probabilities := some p }, probType := t } m := by
  obtain ⟨⟨ha, hn, hc⟩, h2, h3, h4, h5, h6⟩ := h
  refine ⟨⟨?_, ?_, hc⟩, h2, h3, h4, h5, h6⟩
  · exact { ha with probabilities := fun v hv => by cases hv; exact hp }
  · intro hnp
    exact absurd hnp.probabilities (by simp)

theorem probFromSampleSet_surrogate {G : Geometry K} {size k ms : Nat} (hsize : 0 < size)
    {u : List (List K)} {P : List K} (huP : u.length = P.length) {old s : SampleSet K}
    (hoc : Consistent old k) (hov : old.loc.values = some (arraySplit size u))
    (hop : old.loc.probabilities = some (arraySplit size P)) (hr : Ready s ms)
    (hdim : old.dim = s.dim) :
    ∃ s', probFromSampleSet G size old s =
        .ok ((List.range ms).map (mass (u.map (s.cell G)) P), old, s') ∧ Ready s' ms ∧
      s'.cell G = s.cell G ∧ s'.glob.region = s.glob.region := by
  obtain ⟨s', hq, hr', hcell, -⟩ := SampleSet.query_ready (G := G) (size := size) hr
    (arraySplit size u)
  have hfr := SampleSet.query_frame hq
  rw [← arraySplit_map] at hq
  have hg := gatherLoop_eq (arraySplit size (u.map (s.cell G))) (arraySplit size P) ms
    (arraySplit_sameShape size _ _ (by simpa using huP))
  rw [flatten_arraySplit _ _ hsize, flatten_arraySplit _ _ hsize] at hg
  refine ⟨{ s' with
    glob := { s'.glob with
      probabilities := some ((List.range ms).map (mass (u.map (s.cell G)) P)) }
    probType := some .voronoi }, ?_, ready_setProbs hr' (by simp) _, ?_, ?_⟩
  · unfold probFromSampleSet
    simp only [SampleSet.checkNum_consistent hoc, SampleSet.checkNum_consistent hr.consistent, ok_bind,
      raiseIf_false (not_not.mpr hdim), SampleSet.localized_some size hov, hov, orErr_some, hq,
      gatherLoopOpt, hop, hg]
    rfl
  · rw [← hcell]
    rfl
  · show s'.glob.region = _
    rw [hfr.1]

theorem regionMask_surrogate {G : Geometry K} (hG : Sound G) {size ms : Nat}
    {u : List (List K)} {em s : SampleSet K}
    (hev : em.loc.values = some (arraySplit size u)) (hr : Ready s ms) {reg : List Int}
    (hreg : s.glob.region = some reg) {region : Int} (hmem : region ∈ reg) :
    regionMarker s region = .ok (reg.map fun r => decide (r = region)) ∧
    regionMask G size s region em =
      .ok (arraySplit size (u.map fun x => decide (reg.getD (s.cell G x) 0 = region))) := by
  have hmk : regionMarker s region = .ok (reg.map fun r => decide (r = region)) := by
    unfold regionMarker
    simp only [hreg, orErr_some, ok_bind]
    rw [raiseIf_false]
    · rfl
    · simpa using hmem
  refine ⟨hmk, ?_⟩
  obtain ⟨s', hq, -, -, -⟩ := SampleSet.query_ready (G := G) (size := size) hr
    (arraySplit size u)
  have hcn : ({ input := some s, output := some s, emInput := some em } : Disc K).checkNums size =
      .ok ms := checkNums_ok rfl rfl hr.consistent hr.consistent size
  have hl := hr.consistent.1.region reg hreg
  have hidx : ∀ x, getIdx (reg.map fun r => decide (r = region)) (s.cell G x) =
      .ok (decide (reg.getD (s.cell G x) 0 = region)) := by
    intro x
    have := SampleSet.cell_lt hG hr x
    rw [getIdx_eq_ok, List.getElem?_map, List.getD_eq_getElem?_getD,
      List.getElem?_eq_getElem (by omega)]
    rfl
  unfold regionMask
  simp only [hmk, ok_bind, Disc.new, Option.isSome_some, if_true, hcn, pure_bind_ok,
    Disc.setIiPtr, orErr_some, SampleSet.localized_some size hev, hev, hq, Bool.false_eq_true,
    if_false]
  rw [mapM_ok _ (fun c => c.map fun j => (reg.map fun r => decide (r = region)).getD j false)]
  · rw [arraySplit_map, List.map_map]
    congr 1
    refine List.map_congr_left fun c _ => ?_
    simp only [Function.comp, List.map_map]
    refine List.map_congr_left fun x _ => ?_
    have := hidx x
    rw [getIdx_eq_ok] at this
    simp only [Function.comp, List.getD_eq_getElem?_getD, this, Option.getD_some]
  · intro c hc
    obtain ⟨c', hc', rfl⟩ := List.mem_map.1 hc
    refine mapM_ok _ _ _ fun j hj => ?_
    obtain ⟨x, -, rfl⟩ := List.mem_map.1 hj
    have := hidx x
    rw [this]
    rw [getIdx_eq_ok] at this
    simp only [List.getD_eq_getElem?_getD, this, Option.getD_some]

/-! ### The loop over the regions -/

/-- The estimate and the charges for one region when all points are on one process: `inA` says which
points lie in the region. -/
def surrogateMc (s : SampleSet K) (G : Geometry K) (u : List (List K)) (f e : List K → List K)
    (cellO : List K → Nat) (probs : List K) (reg : List Int) (region : Int) :
    Num K × Chunks (Num K) :=
  modelRegionMc [u.map fun x => decide (reg.getD (s.cell G x) 0 = region)]
    [u.map fun x => cellO (f x)] [u.map fun x => cellO (List.zipWith (· + ·) (f x) (e x))] probs

theorem modelErrorInit_surrogate {G : Geometry K} {size k dimI dimO mo : Nat} (hsize : 0 < size)
    {u : List (List K)} {f e : List K → List K} {P : List K} {cellO : List K → Nat} {probs : List K}
    {d : Disc K} (h : SurrStage G size k dimI dimO mo u f e P cellO probs d) :
    ∃ d', modelErrorInit G size d =
        .ok (d', arraySplit size (u.map fun x => cellO (List.zipWith (· + ·) (f x) (e x)))) ∧
      SurrStage G size k dimI dimO mo u f e P cellO probs d' := by
  obtain ⟨⟨s, hs, hsc, hsd, hsv, hsp⟩, ⟨li, hout⟩, ⟨ops, hops, hr, hcell, hp⟩, hio⟩ := h
  have hck : ∀ li, (surrogateOutput dimO (arraySplit size (u.map f))
      (some (arraySplit size (u.map e))) li).checkNum size =
      .ok u.length := fun li => checkNum_localOnly (size := size) (dim := dimO) u hsize f e true li
  have hgl : (surrogateOutput dimO (arraySplit size (u.map f))
      (some (arraySplit size (u.map e))) li).globalToLocal size =
      .ok (surrogateOutput dimO (arraySplit size (u.map f))
      (some (arraySplit size (u.map e))) (some (arraySplit size (List.range u.length)))) := by
    unfold SampleSet.globalToLocal
    rw [hck]
    rfl
  have hadd : addErrors (arraySplit size (u.map f)) (arraySplit size (u.map e)) =
      arraySplit size (u.map fun x => List.zipWith (· + ·) (f x) (e x)) := by
    unfold addErrors
    rw [zipWith_arraySplit hsize _ _ _ (by simp), List.zipWith_map, List.zipWith_self]
  obtain ⟨ops', hq, -, -, -⟩ := SampleSet.query_ready (G := G) (size := size) hr
    (arraySplit size (u.map fun x => List.zipWith (· + ·) (f x) (e x)))
  have hptr : ((arraySplit size (u.map fun x => List.zipWith (· + ·) (f x) (e x))).map
      fun c => c.map (ops.cell G)) =
      arraySplit size (u.map fun x => cellO (List.zipWith (· + ·) (f x) (e x))) := by
    rw [← arraySplit_map, List.map_map, hcell]
    rfl
  rw [hptr] at hq
  have hcn : ({ d with output := some (surrogateOutput dimO (arraySplit size (u.map f))
      (some (arraySplit size (u.map e))) (some (arraySplit size (List.range u.length)))) } : Disc K).checkNums size =
      .ok k := by
    unfold Disc.checkNums
    simp only [hs, orErr_some, ok_bind, hck, SampleSet.checkNum_consistent hsc]
    rw [if_neg (by simp [surrogateOutput])]
    rfl
  refine ⟨{ d with output := some (surrogateOutput dimO (arraySplit size (u.map f))
      (some (arraySplit size (u.map e))) (some (arraySplit size (List.range u.length)))) }, ?_,
    ⟨s, hs, hsc, hsd, hsv, hsp⟩, ⟨_, rfl⟩, ⟨ops, hops, hr, hcell, hp⟩, hio⟩
  unfold modelErrorInit modelErrorNew
  simp only [hout, orErr_some, ok_bind, hgl]
  rw [raiseIf_false (by simp [surrogateOutput])]
  rw [ok_bind, hcn, ok_bind]
  simp only [ensureIoPtr, hio, Option.isNone_some, Bool.false_eq_true, if_false,
    pure_bind_ok, orErr_some]
  simp only [surrogateOutput, orErr_some, ok_bind, hadd, Disc.setIoPtr]
  rw [SampleSet.localized_some size rfl]
  simp only [ok_bind, hops, orErr_some, hq, pure_bind_ok]
  rfl

theorem regionPass_surrogate {G : Geometry K} (hG : Sound G) {size k dimI dimO mo ms : Nat}
    (hsize : 0 < size)
    {u : List (List K)} {f e : List K → List K} {P : List K} {cellO : List K → Nat} {probs : List K}
    {d : Disc K} (h : SurrStage G size k dimI dimO mo u f e P cellO probs d) {s : SampleSet K}
    (hr : Ready s ms) {reg : List Int} (hreg : s.glob.region = some reg) {region : Int}
    (hmem : region ∈ reg) {pn : List K} (hpn : pn.length = ms) :
    ∃ d', regionPass G size s pn d region = .ok {
        prob := (maskSel pn (reg.map fun r => decide (r = region))).sum
        estimate := (surrogateMc s G u f e cellO probs reg region).1
        ids := arraySplit size (surrogateMc s G u f e cellO probs reg region).2.flatten
        surr := d' } ∧
      (surrogateMc s G u f e cellO probs reg region).2.flatten.length = u.length ∧
      SurrStage G size k dimI dimO mo u f e P cellO probs d' := by
  obtain ⟨d', hinit, h'⟩ := modelErrorInit_surrogate hsize h
  obtain ⟨⟨inp, hs, hsc, hsd, hsv, hsp⟩, ⟨li, hout⟩, ⟨ops, hops, hro, hcell, hp⟩, hio⟩ := h'
  obtain ⟨hmk, hmask⟩ := regionMask_surrogate hG hsv hr hreg hmem
  have hsel : maskSelE pn (reg.map fun r => decide (r = region)) =
      .ok (maskSel pn (reg.map fun r => decide (r = region))) := by
    unfold maskSelE
    rw [if_pos (by simp [hpn, hr.consistent.1.region reg hreg])]
  have hone : ∀ {α : Type} (l : List α), onOne (arraySplit size l) = [l] := by
    intro α l
    rw [onOne, flatten_arraySplit _ _ hsize]
  have hsh : ∀ {α β : Type} (g : List K → α) (g' : List K → β),
      SameShape (arraySplit size (u.map g)) (arraySplit size (u.map g')) :=
    fun g g' => arraySplit_sameShape size _ _ (by simp)
  obtain ⟨e1, e2, e3⟩ := modelRegionMc_onOne
    (hsh (fun x => decide (reg.getD (s.cell G x) 0 = region)) (fun x => cellO (f x)))
    (hsh (fun x => cellO (f x)) (fun x => cellO (List.zipWith (· + ·) (f x) (e x)))) probs
  rw [hone, hone, hone] at e1 e2
  have hflat : (modelRegionMc
      (arraySplit size (u.map fun x => decide (reg.getD (s.cell G x) 0 = region)))
      (arraySplit size (u.map fun x => cellO (f x)))
      (arraySplit size (u.map fun x => cellO (List.zipWith (· + ·) (f x) (e x)))) probs).2.flatten =
      (surrogateMc s G u f e cellO probs reg region).2.flatten := by
    unfold surrogateMc
    rw [← e2]
    simp [onOne]
  have hlen : (surrogateMc s G u f e cellO probs reg region).2.flatten.length = u.length := by
    rw [← hflat, ← e3.length_flatten, flatten_arraySplit _ _ hsize, List.length_map]
  have hids : (modelRegionMc
      (arraySplit size (u.map fun x => decide (reg.getD (s.cell G x) 0 = region)))
      (arraySplit size (u.map fun x => cellO (f x)))
      (arraySplit size (u.map fun x => cellO (List.zipWith (· + ·) (f x) (e x)))) probs).2 =
      arraySplit size (surrogateMc s G u f e cellO probs reg region).2.flatten := by
    refine eq_of_flatten_eq (e3.symm.trans (arraySplit_sameShape size _ _ ?_)) ?_
    · rw [List.length_map, hlen]
    · rw [hflat, flatten_arraySplit _ _ hsize]
  refine ⟨d', ?_, hlen, ⟨inp, hs, hsc, hsd, hsv, hsp⟩, ⟨li, hout⟩, ⟨ops, hops, hro, hcell, hp⟩, hio⟩
  unfold regionPass
  simp only [hinit, ok_bind, hmk, hsel, hs, orErr_some, hmask, hops,
    SampleSet.checkNum_consistent hro.consistent, hp, hio, hids, e1]
  rfl

theorem surrogateLoop_surrogate {G : Geometry K} (hG : Sound G) {size k dimI dimO mo ms : Nat}
    (hsize : 0 < size)
    {u : List (List K)} {f e : List K → List K} {P : List K} {cellO : List K → Nat} {probs : List K}
    {s : SampleSet K} (hr : Ready s ms) {reg : List Int} (hreg : s.glob.region = some reg)
    {pn : List K} (hpn : pn.length = ms) (regions : List Int) (hmem : ∀ r ∈ regions, r ∈ reg)
    (d : Disc K) (h : SurrStage G size k dimI dimO mo u f e P cellO probs d)
    (ids : Option (Chunks (Num K))) :
    ∃ d', surrogateLoop G size s pn d ids regions = .ok
        (regions.map fun region => (maskSel pn (reg.map fun r => decide (r = region))).sum,
         regions.map fun region => (surrogateMc s G u f e cellO probs reg region).1,
         (regions.getLast?.map fun region =>
            arraySplit size (surrogateMc s G u f e cellO probs reg region).2.flatten) <|> ids,
         d') ∧
      SurrStage G size k dimI dimO mo u f e P cellO probs d' := by
  induction regions generalizing d ids with
  | nil => exact ⟨d, rfl, h⟩
  | cons region rest ih =>
    obtain ⟨d₁, hp, -, h₁⟩ := regionPass_surrogate hG hsize h hr hreg
      (hmem region (by simp)) hpn
    obtain ⟨d₂, hl, h₂⟩ := ih (fun r hr => hmem r (by simp [hr])) d₁ h₁
      (some (arraySplit size (surrogateMc s G u f e cellO probs reg region).2.flatten))
    refine ⟨d₂, ?_, h₂⟩
    simp only [surrogateLoop, hp, ok_bind, hl, List.map_cons]
    show Except.ok _ = _
    congr 4
    cases rest with
    | nil => rfl
    | cons a t =>
      rw [List.getLast?_cons_cons, List.getLast?_eq_some_getLast (List.cons_ne_nil a t)]
      rfl

/-! ### Finite estimates -/

/-- A number, not an infinity or `nan`. -/
def Num.IsFin : Num K → Prop
  | .fin _ => True
  | _ => False

theorem Num.isFin_of_add {a b : Num K} (h : (a.add b).IsFin) : a.IsFin ∧ b.IsFin := by
  rcases a with _ | _ | a <;> rcases b with _ | _ | b <;>
    (try cases a) <;> (try cases b) <;> simp_all [Num.add, Num.IsFin]

theorem foldl_isFin (inA : Chunks Bool) (io io' : Chunks Nat) (probs : List K) (l : List Nat)
    (st : Num K × Chunks (Num K)) (h : (l.foldl (modelMcStep inA io io' probs) st).1.IsFin) :
    st.1.IsFin ∧ ∀ i ∈ l, 0 < probs.getD i 0 → i ∈ io.flatten ∧ i ∈ io'.flatten := by
  induction l generalizing st with
  | nil => exact ⟨h, by simp⟩
  | cons i l ih =>
    obtain ⟨h1, h2⟩ := ih _ h
    unfold modelMcStep at h1
    by_cases hp : 0 < probs.getD i 0
    · simp only [hp, if_true] at h1
      obtain ⟨h3, h4⟩ := Num.isFin_of_add h1
      refine ⟨h3, ?_⟩
      have h5 : ¬ ((countMask (eqMask io i) : K) * (countMask (eqMask io' i) : K) = 0) := by
        intro h0
        simp [modelTermMc, h0, Num.IsFin] at h4
      have hh : ∀ q : Chunks Nat, (countMask (eqMask q i) : K) ≠ 0 → i ∈ q.flatten := by
        intro q hq
        rw [countMask_eqMask] at hq
        by_contra hni
        refine hq ?_
        have : hits q.flatten i = 0 := List.count_eq_zero.2 hni
        rw [this, Nat.cast_zero]
      rw [mul_eq_zero, not_or] at h5
      intro j hj
      rcases List.mem_cons.1 hj with rfl | hj
      · exact fun _ => ⟨hh io h5.1, hh io' h5.2⟩
      · exact h2 j hj
    · simp only [hp, if_false] at h1
      refine ⟨h1, fun j hj => ?_⟩
      rcases List.mem_cons.1 hj with rfl | hj
      · exact fun hp' => absurd hp' hp
      · exact h2 j hj

theorem sum_liftNum (ids : List K) : (ids.map Num.fin).sum = Num.fin ids.sum := by
  induction ids with
  | nil => rfl
  | cons a l ih => rw [List.map_cons, List.sum_cons, ih, List.sum_cons]; rfl

theorem modelRegionMc_finite [IsStrictOrderedRing K] {inA : Chunks Bool} {io io' : Chunks Nat}
    {probs : List K} (hs : SameShape inA io) (hs' : SameShape io io') {t : K}
    (h : (modelRegionMc inA io io' probs).1 = .fin t) :
    (modelRegionMc inA io io' probs).2.flatten.sum = .fin t := by
  have hf := foldl_isFin inA io io' probs (List.range probs.length)
    (.fin 0, io.map fun c => c.map fun _ => .fin 0) (by
      have : (modelRegionMc inA io io' probs).1.IsFin := by rw [h]; trivial
      exact this)
  obtain ⟨er, ids, h1, -, h3⟩ := C72_error_id_sum inA io io' probs hs hs'
    (fun i hi => hf.2 i (List.mem_range.2 hi))
  rw [h1] at h ⊢
  cases h
  have : (liftNum ids).flatten = ids.flatten.map Num.fin := by
    simp [liftNum, List.map_flatten]
  show (liftNum ids).flatten.sum = _
  rw [this, sum_liftNum, h3]

/-! ### C49 -/

/-- The total of `pn` over the cells with mark `region`. -/
def Spec.regionTotal (pn : List K) (reg : List Int) (region : Int) : K :=
  (((List.zip pn reg).filter fun z => z.2 = region).map Prod.fst).sum

theorem maskSel_region (pn : List K) (reg : List Int) (region : Int) :
    (maskSel pn (reg.map fun r => decide (r = region))).sum = regionTotal pn reg region := by
  unfold regionTotal
  induction pn generalizing reg with
  | nil => cases reg <;> simp [maskSel]
  | cons p pn ih =>
    cases reg with
    | nil => simp [maskSel]
    | cons r reg =>
      by_cases h : r = region
      · simp [maskSel, h, ih]
      · simp [maskSel, h, ih]

/-- What the two calls yield. -/
theorem surrogate_run [IsStrictOrderedRing K] {G : Geometry K} (hG : Sound G) {d : Disc K}
    {inp out ops new s : SampleSet K} {m k mo ms order : Nat} (hi : d.input = some inp)
    (hr : Ready inp m) (ho : d.output = some out) (hoc : Consistent out m)
    (hgen : CanGenerate inp out order) (hee : out.glob.errorEstimates.isSome)
    (hops : d.outputProb = some ops) (hro : Ready ops mo) (hp : ops.glob.probabilities.isSome)
    (hnew : Consistent new k) (hdim : new.dim = inp.dim) {u : List (List K)}
    (hu : new.glob.values = some u) (hloc : new.loc = {})
    (hkv : 0 < k ∨ new.glob.volumes.isSome)
    (hs : Ready s ms) (hsd : new.dim = s.dim) {reg : List Int} (hreg : s.glob.region = some reg)
    {regions : List Int} (hne : regions ≠ []) (hmem : ∀ r ∈ regions, r ∈ reg) :
    ∃ prs ests P ids p err,
      (∃ cells, List.Forall₂ (IsCell G inp) u cells ∧ P.length = u.length ∧ ids.length = u.length ∧
        p.length = m ∧ err.length = m ∧
        ∀ i, i < m → p[i]? = some (mass cells P i) ∧ err[i]? = some (mass cells ids i)) ∧
      (∀ probs, ops.glob.probabilities = some probs → P = surrogateProb mo probs
        (u.map fun x => ops.cell G (surrogateValue G inp out order x)) (surrogateVolumes new k) ∧
        prs = regions.map (regionTotal ((List.range ms).map (mass (u.map (s.cell G)) P)) reg)) ∧
      p.sum = P.sum ∧ err.sum = ids.sum ∧
      (∃ pn, pn.length = ms ∧ IsPushForward G s u P pn ∧ prs = regions.map (regionTotal pn reg)) ∧
      ests.length = regions.length ∧ (∀ t, ests.getLast? = some (.fin t) → ids.sum = .fin t) ∧
      ∀ size > 0, ∃ S r inp' sinp x c ch, generateForInputSet G size d new order = .ok S ∧
        calculateProbForRegions G size S s regions true = .ok r ∧
        r.probs = prs ∧ r.estimates = ests ∧ r.errorId = some err ∧
        r.state.disc.input = some inp' ∧
        inp' = { inp with glob := { inp.glob with probabilities := some p } } ∧
        r.state.surr.input = some sinp ∧ sinp.loc.values = some x ∧ x.flatten = u ∧
        sinp.loc.probabilities = some c ∧ c.flatten = P ∧ r.charges = some ch ∧
        ch.flatten = ids := by
  obtain ⟨ee, hee⟩ := Option.isSome_iff_exists.1 hee
  obtain ⟨probs, hp⟩ := Option.isSome_iff_exists.1 hp
  obtain ⟨hf, hval⟩ := surrogateValues_fresh hG hr hoc hgen u
  set f := surrogateValue G inp out order with hfdef
  set e : List K → List K := fun x => ee.getD (inp.cell G x) [] with hedef
  have hul : u.length = k := hnew.1.values u hu
  set vols := surrogateVolumes new k with hvols
  have hvl : u.length = vols.length := by
    rw [hul, hvols, surrogateVolumes]
    cases hv : new.glob.volumes with
    | none => simp
    | some v => exact (hnew.1.volumes v hv).symm
  set P := surrogateProb mo probs (u.map fun x => ops.cell G (f x)) vols with hP
  have hPl : P.length = u.length := by simp [hP, surrogateProb, ← hvl]
  set pn := (List.range ms).map (mass (u.map (s.cell G)) P) with hpn
  set last := regions.getLast hne with hlast
  set ids := (surrogateMc s G u f e (ops.cell G) probs reg last).2.flatten with hids
  have hsh : ∀ region, SameShape [u.map fun x => decide (reg.getD (s.cell G x) 0 = region)]
      [u.map fun x => ops.cell G (f x)] := fun _ => .cons (by simp) .nil
  have hsh' : SameShape [u.map fun x => ops.cell G (f x)]
      [u.map fun x => ops.cell G (List.zipWith (· + ·) (f x) (e x))] := .cons (by simp) .nil
  have hidl : ids.length = u.length := by
    have := (modelRegionMc_onOne (hsh last) hsh' probs).2.2.length_flatten
    simp only [List.flatten_cons, List.flatten_nil, List.append_nil, List.length_map] at this
    exact this.symm
  have hlt : ∀ j ∈ u.map (inp.cell G), j < m := by
    intro j hj
    obtain ⟨x, -, rfl⟩ := List.mem_map.1 hj
    exact SampleSet.cell_lt hG hr x
  refine ⟨regions.map (regionTotal pn reg),
    regions.map (fun region => (surrogateMc s G u f e (ops.cell G) probs reg region).1), P, ids,
    (List.range m).map (mass (u.map (inp.cell G)) P),
    (List.range m).map (mass (u.map (inp.cell G)) ids), ?_, ?_, ?_, ?_, ?_, ?_, ?_, ?_⟩
  · refine ⟨u.map (inp.cell G), ?_, hPl, hidl, by simp, by simp, fun i hi => by simp [hi]⟩
    rw [List.forall₂_map_right_iff]
    exact List.forall₂_same.mpr fun x _ => SampleSet.cell_isCell hG hr x
  · intro probs' h'
    rw [hp] at h'
    obtain rfl := Option.some.inj h'
    exact ⟨rfl, rfl⟩
  · exact sum_range_mass _ _ _ (by simp [hPl]) hlt
  · exact sum_range_mass _ _ _ (by simp [hidl]) hlt
  · exact ⟨pn, by simp [hpn], pushForward_map hG hs u P, rfl⟩
  · simp
  · intro t ht
    rw [List.getLast?_map, List.getLast?_eq_some_getLast hne, Option.map_some,
      Option.some.injEq] at ht
    exact modelRegionMc_finite (hsh _) hsh' ht
  · intro size hsize
    have hS := generate_fresh hG hsize (d := d) (new := new) (order := order) (k := k)
      (hgen.2.imp id And.left) hi hr ho hoc hnew hdim hu hloc hf (hval size)
    have hnd : Consistent (inheritDomain inp new) k := hnew
    obtain ⟨s₁, hv1, hv2, hv3, hv4, hv5, hv6⟩ := ensureVolumesMc_fresh (size := size) hnd hloc hu hkv
      { input := some ((inheritDomain inp new).splitSet size k)
        output := some (surrogateOutput out.dim (arraySplit size (u.map f))
          (some (arraySplit size (u.map e))))
        outputProb := some ops } rfl
    obtain ⟨d₁, hprob, hst⟩ := prob_surrogate (G := G) (size := size) (k := k)
      (dimI := new.dim) (dimO := out.dim) (mo := mo) hsize (u := u) (f := f) (e := e) (vols := vols)
      (probs := probs) (d := { input := some s₁
                               output := some (surrogateOutput out.dim (arraySplit size (u.map f))
                                 (some (arraySplit size (u.map e))))
                               outputProb := some ops }) rfl hv2 hv3 hv4 hv5 hvl rfl rfl hro hp rfl
    obtain ⟨⟨s₂, hs2, hsc, hsd2, hsv, hsp⟩, hso, hsops, hsio⟩ := hst
    obtain ⟨s', hpf, hrs', hcs', hregs'⟩ := probFromSampleSet_surrogate (G := G) hsize
      (by rw [hPl]) hsc hsv hsp hs (hsd2.trans hsd)
    have hpf : probFromSampleSet G size s₂ s = .ok (pn, s₂, s') := hpf
    have hcell : ∀ region, surrogateMc s' G u f e (ops.cell G) probs reg region =
        surrogateMc s G u f e (ops.cell G) probs reg region := by
      intro region
      simp only [surrogateMc, hcs']
    obtain ⟨d₂, hl, hst2⟩ := surrogateLoop_surrogate hG hsize (P := P) hrs' (hregs'.trans hreg)
      (pn := pn) (by simp [hpn]) regions hmem { d₁ with input := some s₂ }
      ⟨⟨s₂, rfl, hsc, hsd2, hsv, hsp⟩, hso, hsops, hsio⟩ none
    obtain ⟨⟨s₃, hs3, -, -, hsv3, hsp3⟩, -, -, -⟩ := hst2
    have hgP := gatherLoop_eq (arraySplit size (u.map (inp.cell G))) (arraySplit size P) m
      (arraySplit_sameShape size _ _ (by simp [hPl]))
    have hgI := gatherNum_eq m (arraySplit_sameShape size (u.map (inp.cell G)) ids (by simp [hidl]))
    rw [flatten_arraySplit _ _ hsize, flatten_arraySplit _ _ hsize] at hgP hgI
    have hlast' : (regions.getLast?.map fun region => arraySplit size
        (surrogateMc s G u f e (ops.cell G) probs reg region).2.flatten) =
        some (arraySplit size ids) := by
      rw [List.getLast?_eq_some_getLast hne, Option.map_some]
    simp only [hcell, hlast', maskSel_region] at hl
    simp only [hee, Option.isSome_some, if_true, Option.getD_some, hops] at hS
    rw [← hedef] at hS
    refine ⟨_, {
      probs := regions.map (regionTotal pn reg)
      estimates := regions.map fun region =>
        (surrogateMc s G u f e (ops.cell G) probs reg region).1
      state := {
        disc := { d with input := some { inp with glob := { inp.glob with
          probabilities := some ((List.range m).map (mass (u.map (inp.cell G)) P)) } } }
        ptr := arraySplit size (u.map (inp.cell G))
        surr := d₂ }
      charges := some (arraySplit size ids)
      errorId := some ((List.range m).map (mass (u.map (inp.cell G)) ids)) }, _, s₃, _, _, _, hS,
      ?_, rfl, rfl, rfl, rfl, rfl, hs3, hsv3,
      flatten_arraySplit _ _ hsize, hsp3, flatten_arraySplit _ _ hsize, rfl,
      flatten_arraySplit _ _ hsize⟩
    unfold calculateProbForRegions
    simp only [hv1, ok_bind, hprob, hs2, orErr_some, hpf, hl, if_true, updateInput, hi,
      SampleSet.checkNum_consistent hr.consistent, hs3, gatherLoopOpt, hsp3, hgP, hgI,
      pure_bind_ok, show (some (arraySplit size ids) <|> none) = some (arraySplit size ids) from rfl,
      ok_bind]
    rfl

/-- **C49.** Solving with a surrogate and `update_input=True`: there are, for all numbers of
processes the same,
* probabilities `P` and error charges `ids` of the surrogate samples `u` (those the surrogate's input
  set has after the call, gathered),
* region probabilities `prs`, each the total probability of the surrogate samples that lie in the
  cells of that region, and error estimates `ests`,
* new probabilities `p` and errors `err` of the original samples: each cell gets the total of the
  surrogate samples in it, so that the totals of `P` and of `ids` are conserved; the latter is the
  estimate for the last region, if that is finite.
Nothing else in the original input set changes. -/
theorem C49_update [IsStrictOrderedRing K] {G : Geometry K} (hG : Sound G) {d : Disc K}
    {inp out ops new s : SampleSet K} {m k mo ms order : Nat} (hi : d.input = some inp)
    (hr : Ready inp m) (ho : d.output = some out) (hoc : Consistent out m)
    (hgen : CanGenerate inp out order) (hee : out.glob.errorEstimates.isSome)
    (hops : d.outputProb = some ops) (hro : Ready ops mo) (hp : ops.glob.probabilities.isSome)
    (hnew : Consistent new k) (hdim : new.dim = inp.dim) {u : List (List K)}
    (hu : new.glob.values = some u) (hloc : new.loc = {})
    (hkv : 0 < k ∨ new.glob.volumes.isSome)
    (hs : Ready s ms) (hsd : new.dim = s.dim) {reg : List Int} (hreg : s.glob.region = some reg)
    {regions : List Int} (hne : regions ≠ []) (hmem : ∀ r ∈ regions, r ∈ reg) :
    ∃ prs ests P ids p err,
      (∃ cells, List.Forall₂ (IsCell G inp) u cells ∧ P.length = u.length ∧ ids.length = u.length ∧
        p.length = m ∧ err.length = m ∧
        ∀ i, i < m → p[i]? = some (mass cells P i) ∧ err[i]? = some (mass cells ids i)) ∧
      p.sum = P.sum ∧ err.sum = ids.sum ∧
      (∃ pn, pn.length = ms ∧ IsPushForward G s u P pn ∧ prs = regions.map (regionTotal pn reg)) ∧
      ests.length = regions.length ∧ (∀ t, ests.getLast? = some (.fin t) → ids.sum = .fin t) ∧
      ∀ size > 0, ∃ S r inp' sinp x c ch, generateForInputSet G size d new order = .ok S ∧
        calculateProbForRegions G size S s regions true = .ok r ∧
        r.probs = prs ∧ r.estimates = ests ∧ r.errorId = some err ∧
        r.state.disc.input = some inp' ∧
        inp' = { inp with glob := { inp.glob with probabilities := some p } } ∧
        r.state.surr.input = some sinp ∧ sinp.loc.values = some x ∧ x.flatten = u ∧
        sinp.loc.probabilities = some c ∧ c.flatten = P ∧ r.charges = some ch ∧
        ch.flatten = ids := by
  obtain ⟨prs, ests, P, ids, p, err, h1, -, h2⟩ := surrogate_run hG hi hr ho hoc hgen hee hops hro hp hnew hdim hu hloc hkv
    hs hsd hreg hne hmem
  exact ⟨prs, ests, P, ids, p, err, h1, h2⟩

end BET

/-! ### Concrete cases -/

namespace BET.Ex

open BET BET.Spec

/-- `surDisc` with an output probability set of two cells. -/
def surDiscP : Disc ℚ where
  input := surDisc.input
  output := surDisc.output
  outputProb := some { dim := 1, glob := { values := some [[0], [3]], probabilities := some [1/4, 3/4] } }

/-- A set with two regions. -/
def surRegions : SampleSet ℚ := { dim := 1, glob := { values := some [[0], [1], [2]], region := some [0, 1, 1] } }

/-- The hypotheses of `C49_update` are met. -/
example : ∃ S r, generateForInputSet G 3 surDiscP surNew 0 = .ok S ∧
    calculateProbForRegions G 3 S surRegions [1, 0] true = .ok r := by
  obtain ⟨prs, ests, P, ids, p, err, -, -, -, -, -, -, h⟩ := C49_update (K := ℚ) sound_G
    (d := surDiscP) (new := surNew) (s := surRegions) (m := 2) (k := 3) (mo := 2) (ms := 3)
    (order := 0) rfl ⟨consistent_of _ _ rfl rfl, by norm_num, rfl, Or.inl rfl, nofun, nofun⟩ rfl
    (consistent_of _ _ rfl rfl) ⟨rfl, Or.inl rfl⟩ rfl rfl
    ⟨consistent_of _ _ rfl rfl, by norm_num, rfl, Or.inl rfl, nofun, nofun⟩ rfl
    (consistent_of _ _ rfl rfl) rfl rfl rfl (Or.inl (by norm_num))
    ⟨consistent_of _ _ rfl rfl, by norm_num, rfl, Or.inl rfl, nofun, nofun⟩ rfl rfl
    (regions := [1, 0]) (by simp) (by decide)
  obtain ⟨S, r, -, -, -, -, -, h1, h2, -⟩ := h 3 (by norm_num)
  exact ⟨S, r, h1, h2⟩

/-- The probabilities of the original samples, the region probabilities and the charges. -/
example :
    ((generateForInputSet G 2 surDiscP surNew 0).toOption.bind fun S =>
      (calculateProbForRegions G 2 S surRegions [1, 0] true).toOption.bind fun r =>
        r.state.disc.input.bind fun i => i.glob.probabilities) = some [1/4, 3/4] ∧
    ((generateForInputSet G 2 surDiscP surNew 0).toOption.bind fun S =>
      (calculateProbForRegions G 2 S surRegions [1, 0] true).toOption.map fun r => r.probs) =
      some [3/4, 1/4] ∧
    ((generateForInputSet G 2 surDiscP surNew 0).toOption.bind fun S =>
      (calculateProbForRegions G 2 S surRegions [1, 0] true).toOption.bind fun r =>
        r.errorId.map List.length) = some 2 := by
  decide +kernel

/-- Without a region there are no charges and the update fails. -/
example : errOf ((generateForInputSet G 2 surDiscP surNew 0).bind fun S =>
    calculateProbForRegions G 2 S surRegions [] true) = some .typeError := by
  decide +kernel

end BET.Ex
