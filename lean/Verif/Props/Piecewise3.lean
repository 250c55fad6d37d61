import Verif.Props.Piecewise2

/-! # C85: the list with 100 entries -/

namespace Verif.Piecewise.Ex

/-- points on a parabola. -/
def pts : List (ℚ × ℚ) := (List.range 99).map fun i => (((i : ℚ) + 1) ^ 2, 99 - (i : ℚ))

/-- **C85**, deviation: a reachable list with 100 entries, and a point better than all of them for the penalty parameter 300, for which the program reads beyond the
end of the list. -/
theorem full_list_undefined : ∃ P l, Hist P l ∧ l.length = 100 ∧ Better P 10000 (0 : ℚ) ∧ acceptable l 10000 0 = none := by
  have h := hist_run pts _ _ (Hist.init 0 0 100)
  refine ⟨_, _, h, by decide +kernel, ⟨300, by norm_num, ?_⟩, by decide +kernel⟩
  clear h
  decide +kernel

end Verif.Piecewise.Ex
