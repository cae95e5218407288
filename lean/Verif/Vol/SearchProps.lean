import Verif.Vol.Spec
import Verif.Interp.Search
import Mathlib.Data.Prod.Lex

/-!
# Property C31: finding the smiles around a date

`VolByProbability::volatilities` calls the standard library's `binary_search_by` (`volsurface.rs:555`). `searchSmile` is the
contract of that call; `Interp.binarySearch` is its loop, here on the derived order of `DateDayFraction`.
-/

namespace QM.Vol
open QM.Interp (Num binarySearch binarySearch_key)
open Spec Classical

theorem before_lex (a b : Point) : before a b ↔ toLex a < toLex b := by
  rw [Prod.Lex.lt_iff]; rfl

/-- C31, the search. On smiles in ascending date order the binary chop finds what the model assumes. -/
theorem C31_search {smiles : List (Point × Smile)} (hs : Ascending smiles) (t : Point) :
    binarySearch (smiles.map (fun p => (toLex p.1, p))) (toLex t) = searchSmile smiles t := by
  have hs' : smiles.Pairwise (fun a b => toLex a.1 < toLex b.1) := hs.imp (fun h => (before_lex _ _).1 h)
  rw [binarySearch_key (fun p : Point × Smile => toLex p.1) hs']
  unfold searchSmile
  have e : (fun p : Point × Smile => decide (before p.1 t)) = fun p => decide (toLex p.1 < toLex t) := by
    funext p
    exact decide_eq_decide.2 (before_lex _ _)
  simp only [e]
  congr 1
  rw [Bool.eq_iff_iff]
  simp only [beq_iff_eq, decide_eq_true_eq, Option.map_eq_some_iff]
  constructor
  · rintro ⟨a, ha, hb⟩; exact ⟨a, ha, toLex.injective hb⟩
  · rintro ⟨a, ha, hb⟩; exact ⟨a, ha, by rw [hb]⟩

/-- Two smiles on one day, at different times of it, and one later. -/
example : Ascending [((100, 1 / 4), Smile.flat (.val 0.2)), ((100, 3 / 4), Smile.flat (.val 0.3)), ((200, 0), Smile.flat (.val 0.2))] := by
  unfold Ascending before
  simp
  norm_num

end QM.Vol
