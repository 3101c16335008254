import Verif.Model.Order
import Verif.Lemmas.Sound

/-!
# Where the two engines are meant to agree

`Rs.Common` lists what a state and an order must satisfy for the Numba and the Rust engine to execute the order alike.
Each condition excludes a case in which they differ; the differences are stated beside the theorem in `Props/C83`.
-/

namespace Vbt.Rs
open F

/-- Rounding never leaves the finite numbers (exact arithmetic, or rounding with an unlimited range of exponents). -/
def Unbounded (A : Arith) : Prop := ∀ q, (A.rnd q).isfinite = true

/-- The orders both engines execute alike.

* all numbers involved are numbers of the arithmetic;
* a `Percent` order has a size other than zero (NumPy's sign of zero is zero, Rust's is one);
* with locked cash, a short position is only valued without overflow, and a target of zero percent is not taken of an
  infinite value (Rust's minimum skips NaN, Python's keeps its first argument);
* with a granularity, arithmetic is exact (Rust rounds the quotient before taking the floor, Python does not), the free cash
  is not minus infinity and a percentage is finite. -/
structure Common (A : Arith) (st : ProcState) (o : Order) : Prop where
  cash : Rep A st.cash
  position : Rep A st.position
  debt : Rep A st.debt
  freeCash : Rep A st.freeCash
  size : Rep A o.size
  maxSize : Rep A o.maxSize
  fixedFees : Rep A o.fixedFees
  percent : o.sizeType = SizeType.Percent → o.size ≠ zero
  lockShort : o.lockCash = true → lt st.position zero = true → Unbounded A ∧ st.freeCash ≠ ninf
  lockTarget : o.lockCash = true → o.sizeType = SizeType.TargetPercent → o.size = zero → st.value ≠ pinf
  gran : o.gran.isnan = true ∨ ((∃ r t, A = Arith.exact r t) ∧ st.freeCash ≠ ninf ∧
    (o.sizeType = SizeType.Percent → o.size.isfinite = true))

end Vbt.Rs
