import Verif.Rounded.Spec

/-!
# Bumped risk in rounded arithmetic

The arithmetic of the delta and vega reports (`src/risk/deltagamma.rs`, `src/risk/vegavolga.rs`) with every floating-point operation
rounded. The pricer is a function from the bumped number, a spot or a flat volatility, to the price. That the pricer holds the right
market data at each step is the subject of `Risk/Model.lean`. Values that are NaN or infinite, overflow and underflow are not modelled.
-/

namespace QM.Rounded

variable {K : Type} [Field K] [LinearOrder K]

/-- `BumpSpot::apply` for a relative bump, `bumpspot.rs:24`. -/
def bumpSpot (r : Rounding K) (bump spot : K) : K := r.rnd (spot * r.rnd (1 + bump))

/-- The bump that takes the up bump back and goes down, `deltagamma.rs:144` and `bumpvol.rs:45`. -/
def downBump (r : Rounding K) (size : K) : K := r.rnd (r.rnd (r.rnd (1 - size) / r.rnd (1 + size)) - 1)

/-- The slope, `deltagamma.rs:169` and `vegavolga.rs:170`. -/
def slope (r : Rounding K) (up down size : K) : K := r.rnd (r.rnd (up - down) / r.rnd (2 * size))

/-- The curvature, `deltagamma.rs:170` and `vegavolga.rs:171`. The square of `powi(2)` is one multiplication. -/
def curvature (r : Rounding K) (up down unbumped size : K) : K :=
  r.rnd (r.rnd (r.rnd (up + down) - r.rnd (2 * unbumped)) / r.rnd (size * size))

/-- Delta and gamma to one spot, `deltagamma.rs:144-171`: the down bump is applied to the spot that has been bumped up. -/
def deltaGamma (r : Rounding K) (size : K) (price : K → K) (spot : K) : K × K :=
  let upSpot := bumpSpot r size spot
  let downSpot := bumpSpot r (downBump r size) upSpot
  let upbumped := price upSpot
  let downbumped := price downSpot
  let bumpsize := r.rnd (size * spot)
  (slope r upbumped downbumped bumpsize, curvature r upbumped downbumped (price spot) bumpsize)

/-- `ParallelBumpVol::volatilities`, `voldecorators.rs:196-199`, on a flat volatility. -/
def bumpVol (r : Rounding K) (bump vol : K) : K := max (r.rnd (vol + bump)) 0

/-- Vega and volga to one flat volatility, `vegavolga.rs:149-172`, with a flat additive bump. -/
def vegaVolga (r : Rounding K) (size : K) (price : K → K) (vol : K) : K × K :=
  let upVol := bumpVol r size vol
  let downVol := bumpVol r (downBump r size) upVol
  let upbumped := price upVol
  let downbumped := price downVol
  (slope r upbumped downbumped size, curvature r upbumped downbumped (price vol) size)

end QM.Rounded
