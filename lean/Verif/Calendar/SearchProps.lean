import Verif.Calendar.Spec
import Verif.Calendar.Model
import Verif.Interp.SearchProps

/-!
# Property C07: finding a holiday in the list

`remaining_holidays` (`calendar.rs:313-320`) calls the standard library's `binary_search`. `remainingHolidays` is the contract
of that call; `Interp.binarySearch` is its loop.
-/

namespace QM.Calendar
open QM.Interp (binarySearch binarySearch_key)

/-- C07, the search. On the lists that the comment in the code asks for (in order, without duplicates) the binary chop finds
what the model of the calendar assumes. -/
theorem C07_search (holidays : List Int) (d : Int) (hs : holidays.Pairwise (· < ·)) :
    binarySearch (holidays.map (fun h => (h, h))) d = remainingHolidays holidays d := by
  rw [binarySearch_key (fun h : Int => h) hs]
  unfold remainingHolidays
  dsimp only
  rw [Option.map_id']

/-- Three holidays; the second is found, and the day after it is not. -/
example : [18209, 18212, 18300].Pairwise (fun a b : Int => a < b) ∧
    binarySearch ([18209, 18212, 18300].map (fun h : Int => (h, h))) 18212 = (1, true) ∧
    binarySearch ([18209, 18212, 18300].map (fun h : Int => (h, h))) 18213 = (2, false) := by
  refine ⟨by decide, ?_, ?_⟩ <;> simp [QM.Interp.binarySearch, QM.Interp.chop]

/-- C07 needs the order, and `WeekdayAndHolidayCalendar::new` does not check it: in a list out of order the chop overlooks a
listed holiday, which is then a business day. -/
theorem C07_unsorted_false : (18209 : Int) ∈ [18212, 18300, 18209] ∧
    (binarySearch ([18212, 18300, 18209].map (fun h : Int => (h, h))) 18209).2 = false := by
  refine ⟨by decide, ?_⟩
  simp [QM.Interp.binarySearch, QM.Interp.chop]

end QM.Calendar
