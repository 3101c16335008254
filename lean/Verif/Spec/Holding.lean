import Verif.Model.SignalSim

/-! # What it means to hold -/

namespace Vbt
open F

/-- The arguments of `Portfolio.from_holding` with its defaults, apart from costs: an entry in every row, infinitely
many assets at the closing price, no accumulation, no stops, no fixed fees, no rejections.  `f`, `g` and `m` are fees,
slippage and the least size in the first row.  Settings that are not mentioned can be anything. -/
structure HoldSettings (inp : SigInputs) (a : SigArrays) (f g m : Nat → ℚ) : Prop where
  signals : ∀ i c, arraySignals a i c = ⟨true, false, false, false⟩
  stops : inp.useStops = false
  size : ∀ i c, inp.size i c = pinf
  sizeType : ∀ i c, inp.sizeType i c = SizeType.Amount
  accumulate : ∀ i c, inp.accumulate i c = AccumulationMode.Disabled
  price : ∀ c, inp.price 0 c = pinf
  fees : ∀ c, inp.fees 0 c = fin (f c)
  fixedFees : ∀ c, inp.fixedFees 0 c = zero
  slippage : ∀ c, inp.slippage 0 c = fin (g c)
  minSize : ∀ c, inp.minSize 0 c = fin (m c)
  maxSize : ∀ c, inp.maxSize 0 c = pinf
  gran : ∀ c, inp.gran 0 c = nan
  rejectProb : ∀ c, inp.rejectProb 0 c = zero
  log : ∀ c, inp.log 0 c = false

/-- The number of assets that cash `x` buys at price `p` with fees `f` and slippage `g`. -/
def heldSize (x p f g : ℚ) : ℚ := x / ((1 + f) * (1 + g) * p)

/-- The cash and the price are worth an order: positive, costs not negative, what is bought above the tolerance and
not below the least size. -/
structure HoldAffordable (t x p f g m : ℚ) : Prop where
  cash : t < x
  price : 0 < p
  fees : 0 ≤ f
  slippage : 0 ≤ g
  least : 0 ≤ m
  visible : t < heldSize x p f g
  enough : m ≤ heldSize x p f g

end Vbt
