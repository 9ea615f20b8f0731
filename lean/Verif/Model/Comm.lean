import Verif.Model.NumPy

/-!
# The communicator for runs without mpi4py (/repo/bet/Comm.py)
-/

set_option autoImplicit false

namespace BET

/-- A program of one process that uses the collectives BET uses, with values and buffers in `V`
and result in `R`: what the process does next depends on what the collective gives it.  For the
buffer version of `Allreduce` the process goes on with the contents of the receive buffer, for
`Bcast` with the contents of the buffer. -/
inductive CommProg (V R : Type) : Type
  | ret (r : R)
  | size (k : Nat → CommProg V R)
  | rank (k : Nat → CommProg V R)
  | barrier (k : CommProg V R)
  | allgather (v : V) (k : List V → CommProg V R)
  | gather (v : V) (k : Option (List V) → CommProg V R)
  | scatter (vs : List V) (k : V ⊕ List V → CommProg V R)
  | bcast (v : V) (k : V → CommProg V R)
  | allreduce (op : V → V → V) (v : V) (k : V → CommProg V R)
  | allreduceBuf (op : V → V → V) (send recv : V) (k : V → CommProg V R)
  | bcastBuf (buf : V) (k : V → CommProg V R)

/-- `comm_for_no_mpi4py.scatter` (/repo/bet/Comm.py:88-99): the only entry of a list of length
1, any other list unchanged.  (`collections.Iterable` exists up to Python 3.9.) -/
def serialScatter {V : Type} : List V → V ⊕ List V
  | [v] => .inl v
  | vs => .inr vs

/-- A program on `comm_for_no_mpi4py` (/repo/bet/Comm.py:13-162): `size` 1, `rank` 0, `allgather`
and `gather` wrap the value in a list, the reductions and broadcasts return their first argument;
the buffer version of `Allreduce` does not write its receive buffer. -/
def runSerial {V R : Type} : CommProg V R → R
  | .ret r => r
  | .size k => runSerial (k 1)
  | .rank k => runSerial (k 0)
  | .barrier k => runSerial k
  | .allgather v k => runSerial (k [v])
  | .gather v k => runSerial (k (some [v]))
  | .scatter vs k => runSerial (k (serialScatter vs))
  | .bcast v k => runSerial (k v)
  | .allreduce _ v k => runSerial (k v)
  | .allreduceBuf _ _ recv k => runSerial (k recv)
  | .bcastBuf buf k => runSerial (k buf)

end BET
