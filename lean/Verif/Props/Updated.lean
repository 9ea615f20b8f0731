import Verif.Model.Updated
import Verif.Props.RandomSampling
import Mathlib.Tactic.Ring
import Mathlib.Tactic.Linarith

/-!
# C86: sampling from an updated measure (`sample_from_updated`)
-/

set_option autoImplicit false
set_option linter.unusedSectionVars false
set_option linter.unusedSimpArgs false

namespace BET

open Spec

section
variable {K : Type} [Field K]

/-- The chunk of process `r` consists of one block of points for every cluster; block `j` has the
process' share of `counts j` points. -/
def Spec.ByCluster (counts : List Nat) (chunk : List (List K))
    (block : Nat → List (List K) → Prop) : Prop :=
  ∃ blocks : List (List (List K)), chunk = blocks.flatten ∧ blocks.map List.length = counts ∧
    ∀ (j : Nat) (b : List (List K)), blocks[j]? = some b → block j b

/-- The number of points for each cluster and process: the share of `round(weight * n)`. -/
def Spec.Shares (rnd : K → Nat) (ws : List K) (n size r : Nat) : List Nat :=
  ws.map fun w => numLocal (rnd (w * (n : K))) size r

/-- The draws have the length asked for. -/
structure Spec.Draws (rs : Resampler K) (dim : Nat) : Prop where
  kde : ∀ r i j n, (rs.kde r i j n).length = n
  gmm : ∀ r j n, (rs.gmm r j n).length = n ∧ ∀ x ∈ rs.gmm r j n, x.length = dim

theorem stackColumns_append {α : Type} {n m : Nat} {ι : Type} (is : List ι) (a b : ι → List α)
    (ha : ∀ i ∈ is, (a i).length = n) :
    stackColumns (n + m) (is.map fun i => a i ++ b i) =
      stackColumns n (is.map a) ++ stackColumns m (is.map b) := by
  unfold stackColumns
  rw [List.range_add, List.map_append, List.map_map]
  congr 1
  · refine List.map_congr_left fun r hr => ?_
    have hr := List.mem_range.mp hr
    rw [List.filterMap_map, List.filterMap_map]
    refine List.filterMap_congr fun i hi => ?_
    simp only [Function.comp]
    rw [List.getElem?_append_left (by rw [ha i hi]; exact hr)]
  · refine List.map_congr_left fun r hr => ?_
    simp only [Function.comp]
    rw [List.filterMap_map, List.filterMap_map]
    refine List.filterMap_congr fun i hi => ?_
    simp only [Function.comp]
    rw [List.getElem?_append_right (by rw [ha i hi]; omega), ha i hi]
    congr 1
    omega

theorem stackColumns_flatten {α : Type} {ι : Type} (is : List ι) (d : ι → Nat → Nat → List α)
    (hd : ∀ i j n, (d i j n).length = n) (counts : List Nat) (k : Nat) :
    stackColumns counts.sum (is.map fun i => ((counts.zipIdx k).map fun c => d i c.2 c.1).flatten) =
      ((counts.zipIdx k).map fun c => stackColumns c.1 (is.map fun i => d i c.2 c.1)).flatten := by
  induction counts generalizing k with
  | nil => simp [stackColumns]
  | cons n counts ih =>
    simp only [List.sum_cons, List.zipIdx_cons, List.map_cons, List.flatten_cons]
    rw [stackColumns_append is (fun i => d i k n) _ (fun i _ => hd i k n), ih]

theorem updatedCounts_eq (rnd : K → Nat) (ws : List K) (n size r : Nat) :
    updatedCounts rnd ws n size r = Shares rnd ws n size r := rfl

theorem kdeLocal_blocks {rs : Resampler K} {dim : Nat} (hd : Draws rs dim) (r : Nat)
    {counts : List Nat} (hne : counts ≠ []) (hguard : counts.sum ≠ dim) :
    ∃ chunk, kdeLocal rs dim r counts = .ok chunk ∧
      ByCluster counts chunk (fun j b => (∀ x ∈ b, x.length = dim) ∧
        ∀ i < dim, IsColumn b i (rs.kde r i j b.length)) := by
  have hk : kdeLocal rs dim r counts =
      .ok (stackColumns counts.sum ((List.range dim).map fun i => kdeRow rs r i counts)) := by
    unfold kdeLocal
    rw [raiseIf_false (by simpa using hne), ok_bind, fixRows, if_neg hguard,
      if_pos (by simp)]
  refine ⟨_, hk, ?_⟩
  have := stackColumns_flatten (List.range dim) (fun i j n => rs.kde r i j n)
    (fun i j n => hd.kde r i j n) counts 0
  refine ⟨_, this, ?_, ?_⟩
  · rw [List.map_map]
    apply List.ext_getElem?
    intro j
    simp [stackColumns_length, Function.comp_def]
  · intro j b hb
    rw [List.getElem?_map] at hb
    rcases hc : (counts.zipIdx 0)[j]? with _ | c
    · rw [hc] at hb; cases hb
    · rw [hc] at hb
      have hb : stackColumns c.1 ((List.range dim).map fun i => rs.kde r i c.2 c.1) = b :=
        Option.some.inj hb
      have hj : c.2 = j := by
        rw [List.getElem?_zipIdx] at hc
        rcases h' : counts[j]? with _ | m
        · rw [h'] at hc; cases hc
        · rw [h'] at hc
          rw [← Option.some.inj hc]
          simp
      rw [hj] at hb
      have hcols : ∀ x ∈ (List.range dim).map fun i => rs.kde r i j c.1, x.length = c.1 := by
        intro x hx
        obtain ⟨i, -, rfl⟩ := List.mem_map.mp hx
        exact hd.kde r i j c.1
      have hlen : b.length = c.1 := by rw [← hb, stackColumns_length]
      refine ⟨?_, ?_⟩
      · intro x hx
        rw [← hb] at hx
        obtain ⟨k, hk, rfl⟩ := List.mem_map.mp hx
        rw [stackColumns_row_length hcols (List.mem_range.mp hk)]
        simp
      · intro i hi
        rw [hlen, ← hb]
        exact stackColumns_column hcols (by simp [hi])

/-- What is said of the result: it has the dimension asked for, `chunks` on the processes, and globally
their concatenation or nothing. -/
structure Spec.Holds (s : SampleSet K) (dim size : Nat) (globalize : Bool) (chunks : Chunks (List K)) :
    Prop where
  dim : s.dim = dim
  size : chunks.length = size
  loc : s.loc.values = some chunks
  glob : globalize = true → s.glob.values = some chunks.flatten
  noGlob : globalize = false → s.glob.values = none

theorem resampled_ok {dim size : Nat} {chunks : Chunks (List K)} (globalize : Bool)
    (hl : chunks.length = size) (h : ∀ c ∈ chunks, ∀ x ∈ c, x.length = dim) :
    ∃ s, resampled dim chunks globalize = .ok s ∧ Holds s dim size globalize chunks := by
  unfold resampled
  rw [setValuesLocal_ok _ _ (by
    simpa [SampleSet.colsOk] using h), ok_bind]
  refine ⟨_, rfl, ?_⟩
  cases globalize
  · exact ⟨rfl, hl, rfl, nofun, fun _ => rfl⟩
  · exact ⟨rfl, hl, rfl, fun _ => rfl, nofun⟩

theorem byCluster_rows {counts : List Nat} {chunk : List (List K)} {dim : Nat}
    {P : Nat → List (List K) → Prop} (h : ByCluster counts chunk P)
    (hP : ∀ j b, P j b → ∀ x ∈ b, x.length = dim) : ∀ x ∈ chunk, x.length = dim := by
  obtain ⟨blocks, rfl, -, hb⟩ := h
  intro x hx
  obtain ⟨b, hb', hx⟩ := List.mem_flatten.mp hx
  obtain ⟨j, hj⟩ := List.mem_iff_getElem?.mp hb'
  exact hP j b (hb j b hj) x hx

theorem chunks_of_ranks {size : Nat} {f : Nat → Except Err (List (List K))}
    {P : Nat → List (List K) → Prop} (h : ∀ r < size, ∃ c, f r = .ok c ∧ P r c) :
    ∃ chunks : Chunks (List K), (List.range size).mapM f = .ok chunks ∧ chunks.length = size ∧
      ∀ (r : Nat) (c : List (List K)), chunks[r]? = some c → P r c := by
  choose! g hg using h
  refine ⟨(List.range size).map g, mapM_ok f g _ fun r hr => (hg r (List.mem_range.mp hr)).1,
    by simp, ?_⟩
  intro r c hc
  rw [List.getElem?_map] at hc
  have hr : r < size := by
    by_contra hr
    rw [List.getElem?_eq_none (by simpa using hr)] at hc
    cases hc
  rw [List.getElem?_range hr] at hc
  rw [← Option.some.inj hc]
  exact (hg r hr).2

/-- **C86, part.** From a kernel density estimate with clusters: each process draws, cluster by cluster,
its share of `round(weight * n)` points, whose coordinate `i` are draws from the estimate for parameter `i`
of that cluster. It is assumed that no process draws as many points as there are dimensions. -/
theorem C86_kde_partial (st : Stats K) {rs : Resampler K} (rnd : K → Nat) {dim : Nat}
    (hd : Draws rs dim) (size : Nat) {ws : List K} (hne : ws ≠ []) (n : Nat) (globalize : Bool)
    (hguard : ∀ r < size, (Shares rnd ws n size r).sum ≠ dim) :
    ∃ s chunks, sampleFromUpdated st rs rnd size dim (.kde ws) n globalize = .ok s ∧
      Holds s dim size globalize chunks ∧
      ∀ (r : Nat) (c : List (List K)), chunks[r]? = some c →
        ByCluster (Shares rnd ws n size r) c fun j b => (∀ x ∈ b, x.length = dim) ∧
          ∀ i < dim, IsColumn b i (rs.kde r i j b.length) := by
  obtain ⟨chunks, h1, h2, h3⟩ := chunks_of_ranks (size := size)
    (f := fun r => kdeLocal rs dim r (updatedCounts rnd ws n size r))
    (P := fun r c => ByCluster (Shares rnd ws n size r) c fun j b => (∀ x ∈ b, x.length = dim) ∧
          ∀ i < dim, IsColumn b i (rs.kde r i j b.length))
    (fun r hr => kdeLocal_blocks hd r (by simpa [updatedCounts] using hne) (hguard r hr))
  have hrows : ∀ c ∈ chunks, ∀ x ∈ c, x.length = dim := by
    intro c hc
    obtain ⟨r, hr⟩ := List.mem_iff_getElem?.mp hc
    exact byCluster_rows (h3 r c hr) fun j b h => h.1
  obtain ⟨s, hs, hh⟩ := resampled_ok globalize h2 hrows
  exact ⟨s, chunks, by simp only [sampleFromUpdated, h1, ok_bind]; exact hs, hh, h3⟩

/-- **C86 (negation).** A process that draws as many points as there are dimensions stores them
transposed: row `i` of its samples are the numbers drawn for coordinate `i`. -/
theorem C86_negation_transposed (st : Stats K) {rs : Resampler K} (rnd : K → Nat) {dim : Nat}
    (hd : Draws rs dim) (size : Nat) {ws : List K} (hne : ws ≠ []) (n : Nat) (globalize : Bool)
    (hall : ∀ r < size, (Shares rnd ws n size r).sum = dim) :
    ∃ s chunks, sampleFromUpdated st rs rnd size dim (.kde ws) n globalize = .ok s ∧
      Holds s dim size globalize chunks ∧
      ∀ (r : Nat) (c : List (List K)), chunks[r]? = some c → c.length = dim ∧
        ∀ i < dim, c[i]? = some
          (((Shares rnd ws n size r).zipIdx.map fun m => rs.kde r i m.2 m.1).flatten) := by
  obtain ⟨chunks, h1, h2, h3⟩ := chunks_of_ranks (size := size)
    (f := fun r => kdeLocal rs dim r (updatedCounts rnd ws n size r))
    (P := fun r c => (c.length = dim ∧ ∀ i < dim, c[i]? = some
          (((Shares rnd ws n size r).zipIdx.map fun m => rs.kde r i m.2 m.1).flatten)) ∧
          ∀ x ∈ c, x.length = dim)
    (fun r hr => by
      refine ⟨(List.range dim).map fun i => kdeRow rs r i (Shares rnd ws n size r), ?_, ⟨?_, ?_⟩, ?_⟩
      · rw [updatedCounts_eq]
        unfold kdeLocal
        rw [raiseIf_false (by simpa [Shares] using hne), ok_bind, fixRows, if_pos (hall r hr)]
      · simp
      · intro i hi
        rw [List.getElem?_map, List.getElem?_range hi]
        rfl
      · intro x hx
        obtain ⟨i, -, rfl⟩ := List.mem_map.mp hx
        rw [← hall r hr, kdeRow, List.length_flatten, List.map_map]
        congr 1
        apply List.ext_getElem?
        intro j
        simp [Function.comp_def, hd.kde])
  obtain ⟨s, hs, hh⟩ := resampled_ok globalize h2 (fun c hc => by
    obtain ⟨r, hr⟩ := List.mem_iff_getElem?.mp hc
    exact (h3 r c hr).2)
  exact ⟨s, chunks, by simp only [sampleFromUpdated, h1, ok_bind]; exact hs, hh,
    fun r c hc => (h3 r c hc).1⟩

theorem flatten_singletons {α : Type} : ∀ (b : List (List α)), (∀ x ∈ b, x.length = 1) →
    stackColumns b.length [b.flatten] = b ∧ b.flatten.length = b.length := by
  intro b hb
  have hlen : b.flatten.length = b.length := by
    rw [List.length_flatten, List.map_congr_left hb]
    simp
  refine ⟨?_, hlen⟩
  induction b with
  | nil => simp [stackColumns]
  | cons x b ih =>
    obtain ⟨y, rfl⟩ := List.length_eq_one_iff.mp (hb x List.mem_cons_self)
    have hb' := fun z hz => hb z (List.mem_cons_of_mem _ hz)
    have hl' : b.flatten.length = b.length := by simpa using hlen
    have := stackColumns_append (m := b.length) (n := 1) [()] (fun _ => [y]) (fun _ => b.flatten)
      (by simp)
    simp only [List.map_cons, List.map_nil] at this
    rw [ih hb' hl'] at this
    rw [List.flatten_cons, List.length_cons, Nat.add_comm, this]
    simp [stackColumns, List.range_succ]

theorem gmmLocal_blocks {rs : Resampler K} {dim : Nat} (hd : Draws rs dim) (r : Nat)
    {counts : List Nat} (hne : counts ≠ []) (hguard : dim ≠ 1 ∨ counts.length = 1) :
    ∃ chunk, gmmLocal rs dim r counts = .ok chunk ∧
      ByCluster counts chunk (fun j b => b = rs.gmm r j b.length ∧ ∀ x ∈ b, x.length = dim) := by
  have hg : gmmLocal rs dim r counts =
      .ok ((counts.zipIdx.map fun c => rs.gmm r c.2 c.1).flatten) := by
    unfold gmmLocal
    rw [raiseIf_false (by simpa using hne), ok_bind]
    by_cases h1 : dim = 1
    · obtain ⟨n, rfl⟩ := List.length_eq_one_iff.mp (hguard.resolve_left (by simpa using h1))
      subst h1
      simp only []
      rw [raiseIf_false (by simp [sameLength]), ok_bind]
      simp only [List.zipIdx_cons, List.zipIdx_nil, List.map_cons, List.map_nil, if_true,
        List.headD_cons, List.flatten_cons, List.flatten_nil, List.append_nil]
      obtain ⟨hl, hx⟩ := hd.gmm r 0 n
      obtain ⟨h1, h2⟩ := flatten_singletons _ hx
      rw [hl] at h1
      unfold fixRows
      by_cases hn : n = 1
      · subst hn
        rw [if_pos rfl]
        congr 1
        obtain ⟨x, hx'⟩ := List.length_eq_one_iff.mp hl
        rw [hx']
        simp
      · rw [if_neg hn, if_pos (by simp), h1]
    · simp only []
      rw [raiseIf_false (by simp [h1]), ok_bind]
      simp only [if_neg h1]
      rw [fixRows, if_pos rfl]
  refine ⟨_, hg, _, rfl, ?_, ?_⟩
  · rw [List.map_map]
    apply List.ext_getElem?
    intro j
    simp [Function.comp_def, (hd.gmm r _ _).1]
  · intro j b hb
    rw [List.getElem?_map, List.getElem?_zipIdx] at hb
    rcases hc : counts[j]? with _ | c
    · rw [hc] at hb; cases hb
    · rw [hc] at hb
      have hb : rs.gmm r (0 + j) c = b := Option.some.inj hb
      rw [Nat.zero_add] at hb
      have hl := (hd.gmm r j c).1
      rw [hb] at hl
      refine ⟨by rw [hl, hb], ?_⟩
      rw [← hb]
      exact (hd.gmm r j c).2

/-- **C86, part.** From a Gaussian mixture: each process draws, cluster by cluster, its share of
`round(weight * n)` points from the Gaussian of that cluster. In one dimension there may be one cluster
only. -/
theorem C86_gmm_partial (st : Stats K) {rs : Resampler K} (rnd : K → Nat) {dim : Nat}
    (hd : Draws rs dim) (size : Nat) {ws : List K} (hne : ws ≠ []) (n : Nat) (globalize : Bool)
    (hguard : dim ≠ 1 ∨ ws.length = 1) :
    ∃ s chunks, sampleFromUpdated st rs rnd size dim (.gmm ws) n globalize = .ok s ∧
      Holds s dim size globalize chunks ∧
      ∀ (r : Nat) (c : List (List K)), chunks[r]? = some c →
        ByCluster (Shares rnd ws n size r) c fun j b => b = rs.gmm r j b.length := by
  obtain ⟨chunks, h1, h2, h3⟩ := chunks_of_ranks (size := size)
    (f := fun r => gmmLocal rs dim r (updatedCounts rnd ws n size r))
    (P := fun r c => ByCluster (Shares rnd ws n size r) c fun j b =>
      b = rs.gmm r j b.length ∧ ∀ x ∈ b, x.length = dim)
    (fun r hr => gmmLocal_blocks hd r (by simpa [updatedCounts] using hne)
      (by simpa [Shares, updatedCounts] using hguard))
  obtain ⟨s, hs, hh⟩ := resampled_ok globalize h2 (fun c hc => by
    obtain ⟨r, hr⟩ := List.mem_iff_getElem?.mp hc
    exact byCluster_rows (h3 r c hr) fun j b h => h.2)
  refine ⟨s, chunks, by simp only [sampleFromUpdated, h1, ok_bind]; exact hs, hh, ?_⟩
  intro r c hc
  obtain ⟨blocks, h4, h5, h6⟩ := h3 r c hc
  exact ⟨blocks, h4, h5, fun j b hb => (h6 j b hb).1⟩

/-- **C86 (negation).** In one dimension with two or more clusters there is an error, unless on every
process every cluster has exactly one point. -/
theorem C86_negation_gmm (st : Stats K) {rs : Resampler K} (rnd : K → Nat) (hd : Draws rs 1) (size : Nat)
    {ws : List K} (hne : 1 < ws.length) (n : Nat) (globalize : Bool)
    (hbad : ∃ r < size, ∃ m ∈ Shares rnd ws n size r, m ≠ 1) :
    ∃ e, sampleFromUpdated st rs rnd size 1 (.gmm ws) n globalize = .error e := by
  obtain ⟨r, hr, m, hm, hm1⟩ := hbad
  by_contra hno
  push Not at hno
  rcases hres : sampleFromUpdated st rs rnd size 1 (.gmm ws) n globalize with e | s
  · exact hno e hres
  · simp only [sampleFromUpdated, bind_eq_ok] at hres
    obtain ⟨chunks, h1, -⟩ := hres
    obtain ⟨c, hc⟩ := mapM_ok_mem _ _ _ h1 r (List.mem_range.mpr hr)
    rw [updatedCounts_eq] at hc
    have hcl : (Shares rnd ws n size r).length = ws.length := by simp [Shares]
    generalize Shares rnd ws n size r = counts at hm hc hcl
    simp only [gmmLocal, bind_eq_ok, raiseIf_eq_ok, if_true, true_and] at hc
    obtain ⟨-, -, -, hsame, hfix⟩ := hc
    simp only [Bool.not_eq_false] at hsame
    have hlens : ∀ m ∈ counts, m = counts.headD 0 := by
      have hl : (counts.zipIdx.map fun c => rs.gmm r c.2 c.1).map List.flatten =
          counts.zipIdx.map fun c => (rs.gmm r c.2 c.1).flatten := by
        rw [List.map_map]; rfl
      rw [hl] at hsame
      have hlen : ∀ k j, ((rs.gmm r j k).flatten).length = k := fun k j => by
        rw [(flatten_singletons _ (hd.gmm r j k).2).2, (hd.gmm r j k).1]
      unfold sameLength at hsame
      rw [List.all_eq_true] at hsame
      intro m hm
      obtain ⟨j, hj⟩ := List.mem_iff_getElem?.mp hm
      have h1 := hsame ((rs.gmm r j m).flatten) (by
        rw [List.mem_iff_getElem?]
        refine ⟨j, ?_⟩
        rw [List.getElem?_map, List.getElem?_zipIdx, hj]
        simp)
      rw [beq_iff_eq, hlen] at h1
      rw [h1]
      rcases counts with _ | ⟨a, counts⟩
      · simp at hm
      · simp [hlen]
    unfold fixRows at hfix
    split at hfix
    · rename_i hhead
      exact hm1 ((hlens m hm).trans hhead)
    · split at hfix
      · rename_i hlen
        simp at hlen
        omega
      · cases hfix

/-- **C86.** From distributions for the dimensions: `n` samples, shared among the processes, column `i`
drawn from distribution `i`; the domain consists of their supports. -/
theorem C86_rv {st : Stats K} (rs : Resampler K) (rnd : K → Nat) {size : Nat} (hsize : 0 < size)
    {dim : Nat} {specs : List (RvSpec K)} {n : Nat} {globalize : Bool} {s : SampleSet K}
    (h : sampleFromUpdated st rs rnd size dim (.rv specs) n globalize = .ok s) :
    ∃ chunks dom, specs.length = dim ∧ Drawn st specs n size chunks ∧
      Holds s dim size globalize chunks ∧ chunks.flatten.length = n ∧ s.domain = some dom ∧
      List.Forall₂ (fun sp ab => st.interval sp = .ok ab) specs dom := by
  obtain ⟨specs', chunks, dom, h1, h2, h3, h4, h5, h6, h7, h8, h9, h10⟩ :=
    C76_draws hsize (Space.bare { dim := dim } rfl) h
  have : specs' = specs := by
    cases h1
    rfl
  subst this
  exact ⟨chunks, dom, h2, h3, ⟨h4, h3.1, h5, h9, h10⟩, h8, h6, h7⟩

/-- **C86.** Any other measure is refused. -/
theorem C86_refused (st : Stats K) (rs : Resampler K) (rnd : K → Nat) (size dim n : Nat)
    (globalize : Bool) :
    sampleFromUpdated st rs rnd size dim .other n globalize = .error .badObject ∧
    ∀ specs : List (RvSpec K), specs.length ≠ dim →
      sampleFromUpdated st rs rnd size dim (.rv specs) n globalize = .error .dimNotMatching := by
  refine ⟨rfl, fun specs h => ?_⟩
  simp only [sampleFromUpdated, randomSampleSet, InputObj.toSet, ok_bind, RvArg.perDim, if_pos h]
  rfl

theorem sum_shares (rnd : K → Nat) (ws : List K) (n : Nat) {size : Nat} (hsize : 0 < size) :
    ((List.range size).map fun r => (Shares rnd ws n size r).sum).sum =
      (ws.map fun w => rnd (w * (n : K))).sum := by
  induction ws with
  | nil => simp [Shares]
  | cons w ws ih =>
    simp only [Shares, List.map_cons, List.sum_cons] at ih ⊢
    rw [List.sum_map_add, ih, C19_sum _ _ hsize]

/-- **C86.** Whatever the number of processes, the number of points is the sum of the rounded cluster
sizes. -/
theorem C86_number (rnd : K → Nat) (ws : List K) (n : Nat) {size : Nat} (hsize : 0 < size)
    {chunks : Chunks (List K)} (hl : chunks.length = size) {P : Nat → Nat → List (List K) → Prop}
    (h : ∀ (r : Nat) (c : List (List K)), chunks[r]? = some c →
      ByCluster (Shares rnd ws n size r) c (P r)) :
    chunks.flatten.length = (ws.map fun w => rnd (w * (n : K))).sum := by
  rw [← sum_shares rnd ws n hsize, List.length_flatten]
  congr 1
  apply List.ext_getElem?
  intro r
  by_cases hr : r < size
  · have hr' : r < chunks.length := by rw [hl]; exact hr
    obtain ⟨blocks, h1, h2, -⟩ := h r _ (List.getElem?_eq_getElem hr')
    rw [List.getElem?_map, List.getElem?_map, List.getElem?_range hr, List.getElem?_eq_getElem hr']
    simp only [Option.map_some]
    rw [h1, List.length_flatten, h2]
  · simp [hr, hl]

end

section
variable {K : Type} [Field K] [LinearOrder K] [IsStrictOrderedRing K]

/-- `rnd` rounds to a nearest whole number. -/
def Spec.RoundsNearest (rnd : K → Nat) : Prop := ∀ x : K, 0 ≤ x → |(rnd x : K) - x| ≤ 1 / 2

theorem sum_rounded {rnd : K → Nat} (hr : RoundsNearest rnd) (ws : List K) (h0 : ∀ w ∈ ws, 0 ≤ w)
    (n : Nat) :
    |(((ws.map fun w => rnd (w * (n : K))).sum : Nat) : K) - ws.sum * n| ≤ (ws.length : K) / 2 := by
  induction ws with
  | nil => simp
  | cons w ws ih =>
    have h1 := hr (w * n) (mul_nonneg (h0 w List.mem_cons_self) (Nat.cast_nonneg n))
    have h2 := ih fun w hw => h0 w (List.mem_cons_of_mem _ hw)
    simp only [List.map_cons, List.sum_cons, List.length_cons, Nat.cast_add, Nat.cast_one]
    rw [abs_le] at h1 h2 ⊢
    constructor <;> nlinarith [h1.1, h1.2, h2.1, h2.2]

/-- **C86, part.** The number of points differs from `n` by at most half the number of clusters; for one
cluster it is `n`. -/
theorem C86_total_partial {rnd : K → Nat} (hr : RoundsNearest rnd) {ws : List K} (h0 : ∀ w ∈ ws, 0 ≤ w)
    (h1 : ws.sum = 1) (n : Nat) :
    |(((ws.map fun w => rnd (w * (n : K))).sum : Nat) : K) - n| ≤ (ws.length : K) / 2 ∧
    (ws.length = 1 → (ws.map fun w => rnd (w * (n : K))).sum = n) := by
  refine ⟨by simpa [h1] using sum_rounded hr ws h0 n, ?_⟩
  intro hl
  obtain ⟨w, rfl⟩ := List.length_eq_one_iff.mp hl
  have hw : w = 1 := by simpa using h1
  subst hw
  have := hr (1 * n) (by simp)
  rw [one_mul] at this
  simp only [List.map_cons, List.map_nil, List.sum_cons, List.sum_nil, Nat.add_zero, one_mul]
  by_contra hne
  rcases Nat.lt_or_gt_of_ne hne with h | h
  · have : (rnd (n : K) : K) + 1 ≤ n := by exact_mod_cast h
    have h2 := (abs_le.mp ‹|(rnd (n : K) : K) - n| ≤ 1 / 2›).1
    linarith
  · have : (n : K) + 1 ≤ rnd (n : K) := by exact_mod_cast h
    have h2 := (abs_le.mp ‹|(rnd (n : K) : K) - n| ≤ 1 / 2›).2
    linarith

end

/-! ### Examples -/

namespace Ex

/-- Python's `round` for non-negative numbers: halves go to the even neighbour. -/
def pyRound (x : ℚ) : Nat :=
  let f := x.floor.toNat
  if x - f < 1 / 2 then f else if 1 / 2 < x - f then f + 1 else if f % 2 = 0 then f else f + 1

theorem pyRound_nearest : RoundsNearest pyRound := by
  intro x hx
  have h1 : ((x.floor.toNat : Nat) : ℚ) ≤ x := by
    have : ((x.floor.toNat : Int) : ℚ) = (x.floor : ℚ) := by
      rw [Int.toNat_of_nonneg (by rw [Rat.le_floor_iff]; simpa using hx)]
    have h2 : (x.floor : ℚ) ≤ x := Rat.floor_le x
    rw [← this] at h2
    exact_mod_cast h2
  have h2 : x < ((x.floor.toNat : Nat) : ℚ) + 1 := by
    have : ((x.floor.toNat : Int) : ℚ) = (x.floor : ℚ) := by
      rw [Int.toNat_of_nonneg (by rw [Rat.le_floor_iff]; simpa using hx)]
    have h2 : x < (x.floor : ℚ) + 1 := by exact_mod_cast Rat.lt_floor_add_one x
    rw [← this] at h2
    exact_mod_cast h2
  unfold pyRound
  simp only
  rw [abs_le]
  split
  · constructor <;> linarith
  · split
    · push_cast; constructor <;> linarith
    · split
      · constructor <;> linarith
      · push_cast; constructor <;> linarith

/-- Draws that show where they come from: rank, dimension, cluster and position. -/
def showDraws (dim : Nat) : Resampler ℚ where
  kde r i j n := (List.range n).map fun (k : Nat) => 1000 * (r : ℚ) + 100 * i + 10 * j + k
  gmm r j n := (List.range n).map fun (k : Nat) =>
    (List.range dim).map fun (i : Nat) => 1000 * (r : ℚ) + 100 * i + 10 * j + k

theorem showDraws_ok (dim : Nat) : Draws (showDraws dim) dim := by
  refine ⟨by simp [showDraws], fun r j n => ⟨by simp [showDraws], ?_⟩⟩
  intro x hx
  obtain ⟨k, -, rfl⟩ := List.mem_map.mp hx
  simp

/-- Two dimensions, clusters with weights 1/3 and 2/3, six points on two processes. -/
example : (sampleFromUpdated fakeStats (showDraws 2) pyRound 2 2 (.kde [1 / 3, 2 / 3]) 6 true).toOption.bind
    (fun s => s.loc.values) =
    some [[[0, 100], [10, 110], [11, 111]], [[1000, 1100], [1010, 1110], [1011, 1111]]] := by
  decide +kernel

example : ∀ r < 2, (Shares pyRound [1 / 3, 2 / 3] 6 2 r).sum ≠ 2 := by decide +kernel

/-- **C86 (negation).** Two points in two dimensions: the two numbers drawn for coordinate 0 become the
first sample. -/
theorem C86_negation_two_by_two :
    (sampleFromUpdated fakeStats (showDraws 2) pyRound 1 2 (.kde [1]) 2 true).toOption.bind
      (fun s => s.glob.values) = some [[0, 1], [100, 101]] ∧
    (sampleFromUpdated fakeStats (showDraws 2) pyRound 1 2 (.kde [1]) 3 true).toOption.bind
      (fun s => s.glob.values) = some [[0, 100], [1, 101], [2, 102]] := by decide +kernel

/-- **C86 (negation).** Three points are asked for and four drawn; one is asked for and none drawn. -/
theorem C86_negation_number :
    (sampleFromUpdated fakeStats (showDraws 3) pyRound 1 3 (.kde [1 / 2, 1 / 2]) 3 true).toOption.bind
      (fun s => s.glob.values.map List.length) = some 4 ∧
    (sampleFromUpdated fakeStats (showDraws 3) pyRound 1 3 (.kde [1 / 2, 1 / 2]) 1 true).toOption.bind
      (fun s => s.glob.values.map List.length) = some 0 := by decide +kernel

example : errOf (sampleFromUpdated fakeStats (showDraws 1) pyRound 1 1 (.gmm [1 / 3, 2 / 3]) 6 true) =
    some .valueError := by decide +kernel

example : (sampleFromUpdated fakeStats (showDraws 2) pyRound 1 2 (.gmm [1 / 3, 2 / 3]) 3 true).toOption.bind
    (fun s => s.glob.values) = some [[0, 100], [10, 110], [11, 111]] := by decide +kernel

end Ex

end BET
