import Verif.Root.NanModel
import Verif.Risk.Model

/-!
# Model of `src/solvers/impliedvol.rs`

The solver works on any implementation of `Pricer`. The list of ids of vol surfaces among the dependencies of the pricer
(`impliedvol.rs:49-50`) is handed in as a function of its state. The numbers `min`, `max`, `tolerance` and `target` are real.
-/

namespace QM.Solvers
open QM.Interp QM.Vol QM.Market QM.Risk QM.Root

/-- `ImpliedVol`, `impliedvol.rs:13-16`. -/
structure ImpliedVol where
  tolerance : ℝ
  maxIter : Nat

variable {σ S : Type} (P : Pricer σ S)

/-- `price_given_vol`, `impliedvol.rs:43-47`. -/
def priceGivenVol (id : String) (vol : ℝ) (p : σ) : Outcome (Num ℝ) × σ :=
  match P.bump (.vol id (.replace (.val vol))) p none with
  | (.error e, p, _) => (.error e, p)
  | (.ok _, p, _) => (P.price p, p)

/-- `single_vol_id`, `impliedvol.rs:49-60`. -/
def singleVolId : List String → Outcome String
  | [] => .error .err
  | [id] => .ok id
  | _ :: _ :: _ => .error .err

/-- The closure of `solve`, `impliedvol.rs:39`. -/
noncomputable def objective (id : String) (target : ℝ) (vol : ℝ) (p : σ) : Outcome (Num ℝ) × σ :=
  ((priceGivenVol P id vol p).1.map (num1 (· - target)), (priceGivenVol P id vol p).2)

/-- `solve`, `impliedvol.rs:31-40`. -/
noncomputable def ImpliedVol.solve (s : ImpliedVol) (vols : σ → List String) (p : σ) (target min max : ℝ) : Outcome ℝ × σ :=
  match singleVolId (vols p) with
  | .error e => (.error e, p)
  | .ok id => zbrentN min max s.tolerance s.maxIter (objective P id target) p

/-- The ids of the vol surfaces that a self pricer depends on. -/
def selfVols (p : SelfPricer) : List String := p.context.dependencies.volSurfaces.entries.map Prod.fst

end QM.Solvers
