import Verif.Model.Comm

/-!
# The serial communicator behaves like MPI on one process (C65)
-/

set_option autoImplicit false

namespace BET

namespace Spec

/-! ### What MPI specifies, for any number of processes

The contributions of all processes are listed in the order of the ranks. -/

/-- Everybody receives all contributions in rank order. -/
def mpiAllgather {V : Type} (vs : List V) (_rank : Nat) : List V := vs

/-- The root receives all contributions, the others nothing. -/
def mpiGather {V : Type} (root : Nat) (vs : List V) (rank : Nat) : Option (List V) :=
  if rank = root then some vs else none

/-- Rank `r` receives entry `r` of the root's list, which must have one entry per process;
`none` is an error. -/
def mpiScatter {V : Type} (size : Nat) (fromRoot : List V) (rank : Nat) : Option V :=
  if fromRoot.length = size then fromRoot[rank]? else none

/-- Everybody receives the root's value. -/
def mpiBcast {V : Type} (root : Nat) (vs : List V) : Option V := vs[root]?

/-- Everybody receives the contributions combined in rank order. -/
def mpiReduce {V : Type} (op : V → V → V) : List V → Option V
  | [] => none
  | v :: vs => some (vs.foldl op v)

/-- `Runs p r`: under MPI with one process the program `p` may end with result `r`.  No rule
applies to a collective that MPI rejects. -/
inductive Runs {V R : Type} : CommProg V R → R → Prop
  | ret {r : R} : Runs (.ret r) r
  | size {k : Nat → CommProg V R} {r : R} : Runs (k 1) r → Runs (.size k) r
  | rank {k : Nat → CommProg V R} {r : R} : Runs (k 0) r → Runs (.rank k) r
  | barrier {k : CommProg V R} {r : R} : Runs k r → Runs (.barrier k) r
  | allgather {v : V} {k : List V → CommProg V R} {r : R} :
      Runs (k (mpiAllgather [v] 0)) r → Runs (.allgather v k) r
  | gather {v : V} {k : Option (List V) → CommProg V R} {r : R} :
      Runs (k (mpiGather 0 [v] 0)) r → Runs (.gather v k) r
  | scatter {vs : List V} {v : V} {k : V ⊕ List V → CommProg V R} {r : R} :
      mpiScatter 1 vs 0 = some v → Runs (k (.inl v)) r → Runs (.scatter vs k) r
  | bcast {v w : V} {k : V → CommProg V R} {r : R} :
      mpiBcast 0 [v] = some w → Runs (k w) r → Runs (.bcast v k) r
  | allreduce {op : V → V → V} {v w : V} {k : V → CommProg V R} {r : R} :
      mpiReduce op [v] = some w → Runs (k w) r → Runs (.allreduce op v k) r
  | allreduceBuf {op : V → V → V} {send recv w : V} {k : V → CommProg V R} {r : R} :
      mpiReduce op [send] = some w → Runs (k w) r → Runs (.allreduceBuf op send recv k) r
  | bcastBuf {buf w : V} {k : V → CommProg V R} {r : R} :
      mpiBcast 0 [buf] = some w → Runs (k w) r → Runs (.bcastBuf buf k) r

/-- On its way under MPI with one process the program never calls the buffer version of
`Allreduce` with a receive buffer that is not a copy of the send buffer (every call in BET is
preceded by `recv = np.copy(send)`), and scatters lists with one entry per process (in BET the
list is `np.array_split(..., comm.size)`). -/
inductive CopiesFirst {V R : Type} : CommProg V R → Prop
  | ret {r : R} : CopiesFirst (.ret r)
  | size {k : Nat → CommProg V R} : CopiesFirst (k 1) → CopiesFirst (.size k)
  | rank {k : Nat → CommProg V R} : CopiesFirst (k 0) → CopiesFirst (.rank k)
  | barrier {k : CommProg V R} : CopiesFirst k → CopiesFirst (.barrier k)
  | allgather {v : V} {k : List V → CommProg V R} : CopiesFirst (k [v]) →
      CopiesFirst (.allgather v k)
  | gather {v : V} {k : Option (List V) → CommProg V R} : CopiesFirst (k (some [v])) →
      CopiesFirst (.gather v k)
  | scatter {v : V} {k : V ⊕ List V → CommProg V R} : CopiesFirst (k (.inl v)) →
      CopiesFirst (.scatter [v] k)
  | bcast {v : V} {k : V → CommProg V R} : CopiesFirst (k v) → CopiesFirst (.bcast v k)
  | allreduce {op : V → V → V} {v : V} {k : V → CommProg V R} : CopiesFirst (k v) →
      CopiesFirst (.allreduce op v k)
  | allreduceBuf {op : V → V → V} {send recv : V} {k : V → CommProg V R} : recv = send →
      CopiesFirst (k recv) → CopiesFirst (.allreduceBuf op send recv k)
  | bcastBuf {buf : V} {k : V → CommProg V R} : CopiesFirst (k buf) → CopiesFirst (.bcastBuf buf k)

end Spec

open Spec

theorem mpiScatter_one {V : Type} {vs : List V} {v : V} (h : mpiScatter 1 vs 0 = some v) :
    vs = [v] := by
  unfold mpiScatter at h
  split at h
  · next hl =>
    match vs, hl with
    | [w], _ => simpa using h
  · cases h

/-- **C65.** Every program over the collectives of BET that fills its receive buffers with a copy
first and scatters one entry per process: under MPI with one process it runs to exactly one result,
the one it has on the serial communicator. -/
theorem C65_serial_is_mpi {V R : Type} {p : CommProg V R} (hp : CopiesFirst p) (r : R) :
    Runs p r ↔ r = runSerial p := by
  constructor
  · intro h
    symm
    induction h with
    | ret => rfl
    | size _ ih => cases hp with | size hp => exact ih hp
    | rank _ ih => cases hp with | rank hp => exact ih hp
    | barrier _ ih => cases hp with | barrier hp => exact ih hp
    | allgather _ ih => cases hp with | allgather hp => exact ih hp
    | gather _ ih => cases hp with | gather hp => exact ih hp
    | scatter hs _ ih =>
      cases hp with
      | scatter hp =>
        cases mpiScatter_one hs
        exact ih hp
    | bcast hb _ ih =>
      cases hp with
      | bcast hp => cases hb; exact ih hp
    | allreduce hr _ ih =>
      cases hp with
      | allreduce hp => cases hr; exact ih hp
    | allreduceBuf hr _ ih =>
      cases hp with
      | allreduceBuf he hp => cases hr; subst he; exact ih hp
    | bcastBuf hb _ ih =>
      cases hp with
      | bcastBuf hp => cases hb; exact ih hp
  · rintro rfl
    induction hp with
    | ret => exact .ret
    | size _ ih => exact .size ih
    | rank _ ih => exact .rank ih
    | barrier _ ih => exact .barrier ih
    | allgather _ ih => exact .allgather ih
    | gather _ ih => exact .gather ih
    | scatter _ ih => exact .scatter rfl ih
    | bcast _ ih => exact .bcast rfl ih
    | allreduce _ ih => exact .allreduce rfl ih
    | allreduceBuf he _ ih => subst he; exact .allreduceBuf rfl ih
    | bcastBuf _ ih => exact .bcastBuf rfl ih

namespace Ex

/-- A sum over the processes with `recv = np.copy(send)`, a scatter and a gather. -/
def prog (x : Nat) : CommProg Nat (Option (List Nat)) :=
  .size fun n => .allreduceBuf (· + ·) (x + n) (x + n) fun y => .scatter [y] fun z =>
    match z with
    | .inl z => .gather z fun l => .ret l
    | .inr _ => .ret none

example (x : Nat) : CopiesFirst (prog x) ∧ Runs (prog x) (some [x + 1]) :=
  ⟨.size (.allreduceBuf rfl (.scatter (.gather .ret))),
    .size (.allreduceBuf rfl (.scatter rfl (.gather .ret)))⟩

/-- Without the copy the serial communicator leaves the receive buffer as it was: MPI gives 1, the
serial communicator 0. -/
theorem C65_needs_copy :
    Runs (.allreduceBuf (· + ·) 1 0 fun y => .ret y : CommProg Nat Nat) 1 ∧
      runSerial (.allreduceBuf (· + ·) 1 0 fun y => .ret y : CommProg Nat Nat) = 0 :=
  ⟨.allreduceBuf rfl .ret, rfl⟩

/-- A list that has not one entry per process is rejected by MPI but passed on unchanged by the
serial communicator. -/
theorem C65_scatter_length :
    (∀ r, ¬ Runs (.scatter [1, 2] fun y => .ret y : CommProg Nat (Nat ⊕ List Nat)) r) ∧
      runSerial (.scatter [1, 2] fun y => .ret y : CommProg Nat (Nat ⊕ List Nat)) =
        .inr [1, 2] := by
  refine ⟨fun r h => ?_, rfl⟩
  cases h with
  | scatter hs _ => cases hs

end Ex

end BET
