import Verif.At.TrieProps

/-!
# The commands of spandsp
-/

namespace At

/-- `wordlist`: /repo/src/make_at_dictionary.c:34-439. -/
def words : List (List Nat) := [
  [32],
  [38, 67],
  [38, 68],
  [38, 70],
  [43, 65, 56, 65],
  [43, 65, 56, 67],
  [43, 65, 56, 69],
  [43, 65, 56, 73],
  [43, 65, 56, 74],
  [43, 65, 56, 77],
  [43, 65, 56, 82],
  [43, 65, 56, 84],
  [43, 65, 83, 84, 79],
  [43, 67, 65, 65, 80],
  [43, 67, 65, 67, 77],
  [43, 67, 65, 67, 83, 80],
  [43, 67, 65, 68],
  [43, 67, 65, 69, 77, 76, 80, 80],
  [43, 67, 65, 72, 76, 68],
  [43, 67, 65, 74, 79, 73, 78],
  [43, 67, 65, 76, 65],
  [43, 67, 65, 76, 67, 67],
  [43, 67, 65, 76, 68],
  [43, 67, 65, 76, 77],
  [43, 67, 65, 77, 77],
  [43, 67, 65, 78, 67, 72, 69, 86],
  [43, 67, 65, 79, 67],
  [43, 67, 65, 80, 68],
  [43, 67, 65, 80, 84, 84],
  [43, 67, 65, 82, 69, 74],
  [43, 67, 65, 85, 76, 69, 86],
  [43, 67, 66, 67],
  [43, 67, 66, 67, 83],
  [43, 67, 66, 73, 80],
  [43, 67, 66, 83, 84],
  [43, 67, 67, 70, 67],
  [43, 67, 67, 76, 75],
  [43, 67, 67, 83],
  [43, 67, 67, 85, 71],
  [43, 67, 67, 87, 65],
  [43, 67, 67, 87, 69],
  [43, 67, 68, 73, 80],
  [43, 67, 68, 73, 83],
  [43, 67, 68, 86],
  [43, 67, 69, 69, 82],
  [43, 67, 69, 83, 80],
  [43, 67, 70, 67, 83],
  [43, 67, 70, 71],
  [43, 67, 70, 85, 78],
  [43, 67, 71, 65, 67, 84],
  [43, 67, 71, 65, 78, 83],
  [43, 67, 71, 65, 84, 84],
  [43, 67, 71, 65, 85, 84, 79],
  [43, 67, 71, 67, 65, 80],
  [43, 67, 71, 67, 76, 65, 83, 83],
  [43, 67, 71, 67, 76, 79, 83, 80],
  [43, 67, 71, 67, 76, 80, 65, 68],
  [43, 67, 71, 67, 77, 79, 68],
  [43, 67, 71, 67, 83],
  [43, 67, 71, 68, 65, 84, 65],
  [43, 67, 71, 68, 67, 79, 78, 84],
  [43, 67, 71, 68, 83, 67, 79, 78, 84],
  [43, 67, 71, 69, 81, 77, 73, 78],
  [43, 67, 71, 69, 81, 78, 69, 71],
  [43, 67, 71, 69, 81, 82, 69, 81],
  [43, 67, 71, 69, 82, 69, 80],
  [43, 67, 71, 77, 73],
  [43, 67, 71, 77, 77],
  [43, 67, 71, 77, 82],
  [43, 67, 71, 79, 73],
  [43, 67, 71, 80, 65, 68, 68, 82],
  [43, 67, 71, 81, 77, 73, 78],
  [43, 67, 71, 81, 82, 69, 81],
  [43, 67, 71, 82, 69, 71],
  [43, 67, 71, 83, 77, 83],
  [43, 67, 71, 83, 78],
  [43, 67, 71, 84, 70, 84],
  [43, 67, 72, 76, 68],
  [43, 67, 72, 83, 65],
  [43, 67, 72, 83, 67],
  [43, 67, 72, 83, 68],
  [43, 67, 72, 83, 78],
  [43, 67, 72, 83, 82],
  [43, 67, 72, 83, 84],
  [43, 67, 72, 83, 85],
  [43, 67, 72, 85, 80],
  [43, 67, 72, 86],
  [43, 67, 73, 77, 73],
  [43, 67, 73, 78, 68],
  [43, 67, 73, 84],
  [43, 67, 75, 80, 68],
  [43, 67, 76, 65, 67],
  [43, 67, 76, 65, 69],
  [43, 67, 76, 65, 78],
  [43, 67, 76, 67, 67],
  [43, 67, 76, 67, 75],
  [43, 67, 76, 73, 80],
  [43, 67, 76, 73, 82],
  [43, 67, 76, 86, 76],
  [43, 67, 77, 65, 82],
  [43, 67, 77, 69, 67],
  [43, 67, 77, 69, 69],
  [43, 67, 77, 69, 82],
  [43, 67, 77, 71, 67],
  [43, 67, 77, 71, 68],
  [43, 67, 77, 71, 70],
  [43, 67, 77, 71, 76],
  [43, 67, 77, 71, 82],
  [43, 67, 77, 71, 83],
  [43, 67, 77, 71, 87],
  [43, 67, 77, 73, 80],
  [43, 67, 77, 77],
  [43, 67, 77, 77, 83],
  [43, 67, 77, 79, 68],
  [43, 67, 77, 83, 83],
  [43, 67, 77, 85, 84],
  [43, 67, 77, 85, 88],
  [43, 67, 78, 77, 65],
  [43, 67, 78, 77, 73],
  [43, 67, 78, 85, 77],
  [43, 67, 79, 76, 80],
  [43, 67, 79, 80, 78],
  [43, 67, 79, 80, 83],
  [43, 67, 79, 83],
  [43, 67, 79, 84, 68, 73],
  [43, 67, 80, 65, 83],
  [43, 67, 80, 66, 70],
  [43, 67, 80, 66, 82],
  [43, 67, 80, 66, 83],
  [43, 67, 80, 66, 87],
  [43, 67, 80, 73, 78],
  [43, 67, 80, 76, 83],
  [43, 67, 80, 77, 83],
  [43, 67, 80, 79, 76],
  [43, 67, 80, 80, 83],
  [43, 67, 80, 82, 79, 84],
  [43, 67, 80, 85, 67],
  [43, 67, 80, 87, 67],
  [43, 67, 80, 87, 68],
  [43, 67, 81, 68],
  [43, 67, 82],
  [43, 67, 82, 67],
  [43, 67, 82, 69, 71],
  [43, 67, 82, 69, 83],
  [43, 67, 82, 76, 80],
  [43, 67, 82, 77],
  [43, 67, 82, 77, 67],
  [43, 67, 82, 77, 80],
  [43, 67, 82, 83, 76],
  [43, 67, 82, 83, 77],
  [43, 67, 83, 65, 83],
  [43, 67, 83, 67, 65],
  [43, 67, 83, 67, 66],
  [43, 67, 83, 67, 67],
  [43, 67, 83, 67, 83],
  [43, 67, 83, 68, 70],
  [43, 67, 83, 68, 72],
  [43, 67, 83, 71, 84],
  [43, 67, 83, 73, 76],
  [43, 67, 83, 73, 77],
  [43, 67, 83, 77, 80],
  [43, 67, 83, 77, 83],
  [43, 67, 83, 78, 83],
  [43, 67, 83, 81],
  [43, 67, 83, 83],
  [43, 67, 83, 83, 78],
  [43, 67, 83, 84, 65],
  [43, 67, 83, 84, 70],
  [43, 67, 83, 86, 77],
  [43, 67, 84, 65],
  [43, 67, 84, 70],
  [43, 67, 84, 70, 82],
  [43, 67, 84, 90, 82],
  [43, 67, 84, 90, 85],
  [43, 67, 85, 83, 68],
  [43, 67, 85, 85, 83, 49],
  [43, 67, 86, 49, 50, 48],
  [43, 67, 86, 72, 85],
  [43, 67, 86, 73, 66],
  [43, 67, 88, 84],
  [43, 68, 82],
  [43, 68, 83],
  [43, 68, 83, 52, 52],
  [43, 69, 66],
  [43, 69, 70, 67, 83],
  [43, 69, 70, 82, 65, 77],
  [43, 69, 82],
  [43, 69, 83],
  [43, 69, 83, 65],
  [43, 69, 83, 82],
  [43, 69, 84, 66, 77],
  [43, 69, 87, 73, 78, 68],
  [43, 70, 51, 52],
  [43, 70, 65, 65],
  [43, 70, 65, 80],
  [43, 70, 65, 82],
  [43, 70, 66, 79],
  [43, 70, 66, 83],
  [43, 70, 66, 85],
  [43, 70, 67, 67],
  [43, 70, 67, 76],
  [43, 70, 67, 76, 65, 83, 83],
  [43, 70, 67, 81],
  [43, 70, 67, 82],
  [43, 70, 67, 83],
  [43, 70, 67, 84],
  [43, 70, 68, 68],
  [43, 70, 68, 82],
  [43, 70, 68, 84],
  [43, 70, 69, 65],
  [43, 70, 70, 67],
  [43, 70, 70, 68],
  [43, 70, 72, 83],
  [43, 70, 73, 69],
  [43, 70, 73, 80],
  [43, 70, 73, 83],
  [43, 70, 73, 84],
  [43, 70, 75, 83],
  [43, 70, 76, 73],
  [43, 70, 76, 79],
  [43, 70, 76, 80],
  [43, 70, 77, 73],
  [43, 70, 77, 77],
  [43, 70, 77, 82],
  [43, 70, 77, 83],
  [43, 70, 78, 68],
  [43, 70, 78, 82],
  [43, 70, 78, 83],
  [43, 70, 80, 65],
  [43, 70, 80, 73],
  [43, 70, 80, 80],
  [43, 70, 80, 82],
  [43, 70, 80, 83],
  [43, 70, 80, 87],
  [43, 70, 82, 72],
  [43, 70, 82, 77],
  [43, 70, 82, 81],
  [43, 70, 82, 83],
  [43, 70, 82, 89],
  [43, 70, 83, 65],
  [43, 70, 83, 80],
  [43, 70, 84, 72],
  [43, 70, 84, 77],
  [43, 70, 84, 83],
  [43, 71, 67, 65, 80],
  [43, 71, 67, 73],
  [43, 71, 77, 73],
  [43, 71, 77, 77],
  [43, 71, 77, 82],
  [43, 71, 79, 73],
  [43, 71, 83, 78],
  [43, 73, 66, 67],
  [43, 73, 66, 77],
  [43, 73, 67, 70],
  [43, 73, 67, 76, 79, 75],
  [43, 73, 68, 83, 82],
  [43, 73, 70, 67],
  [43, 73, 76, 82, 82],
  [43, 73, 76, 83, 68],
  [43, 73, 80, 82],
  [43, 73, 82, 84, 83],
  [43, 73, 84, 70],
  [43, 77, 65],
  [43, 77, 82],
  [43, 77, 83],
  [43, 77, 83, 67],
  [43, 77, 86, 49, 56, 65, 77],
  [43, 77, 86, 49, 56, 80],
  [43, 77, 86, 49, 56, 82],
  [43, 77, 86, 49, 56, 83],
  [43, 80, 67, 87],
  [43, 80, 73, 71],
  [43, 80, 77, 72],
  [43, 80, 77, 72, 70],
  [43, 80, 77, 72, 82],
  [43, 80, 77, 72, 84],
  [43, 80, 81, 67],
  [43, 80, 83, 83],
  [43, 83, 65, 67],
  [43, 83, 65, 77],
  [43, 83, 65, 82],
  [43, 83, 65, 82, 82],
  [43, 83, 65, 84],
  [43, 83, 67, 82, 82],
  [43, 83, 68, 67],
  [43, 83, 68, 73],
  [43, 83, 68, 82],
  [43, 83, 82, 83, 67],
  [43, 83, 84, 67],
  [43, 83, 84, 72],
  [43, 83, 86, 67],
  [43, 83, 86, 77],
  [43, 83, 86, 82],
  [43, 83, 86, 82, 82],
  [43, 83, 86, 84],
  [43, 84, 65, 68, 82],
  [43, 84, 65, 76],
  [43, 84, 65, 76, 83],
  [43, 84, 68, 76, 83],
  [43, 84, 69, 49, 52, 48],
  [43, 84, 69, 49, 52, 49],
  [43, 84, 69, 80, 65, 76],
  [43, 84, 69, 80, 68, 76],
  [43, 84, 69, 82, 68, 76],
  [43, 84, 76, 68, 76],
  [43, 84, 77, 79],
  [43, 84, 77, 79, 68, 69],
  [43, 84, 78, 85, 77],
  [43, 84, 82, 68, 76],
  [43, 84, 82, 68, 76, 83],
  [43, 84, 82, 69, 83],
  [43, 84, 83, 69, 76, 70],
  [43, 84, 84, 69, 82],
  [43, 86, 65, 67],
  [43, 86, 65, 67, 82],
  [43, 86, 66, 84],
  [43, 86, 67, 73, 68],
  [43, 86, 67, 73, 68, 82],
  [43, 86, 68, 73, 68],
  [43, 86, 68, 73, 68, 82],
  [43, 86, 68, 82],
  [43, 86, 68, 84],
  [43, 86, 68, 88],
  [43, 86, 69, 77],
  [43, 86, 71, 77],
  [43, 86, 71, 82],
  [43, 86, 71, 83],
  [43, 86, 71, 84],
  [43, 86, 72, 67],
  [43, 86, 73, 80],
  [43, 86, 73, 84],
  [43, 86, 76, 83],
  [43, 86, 78, 72],
  [43, 86, 80, 72],
  [43, 86, 80, 80],
  [43, 86, 80, 82],
  [43, 86, 82, 65],
  [43, 86, 82, 73, 68],
  [43, 86, 82, 76],
  [43, 86, 82, 78],
  [43, 86, 82, 88],
  [43, 86, 83, 68],
  [43, 86, 83, 73, 68],
  [43, 86, 83, 77],
  [43, 86, 83, 80],
  [43, 86, 84, 65],
  [43, 86, 84, 68],
  [43, 86, 84, 69, 82],
  [43, 86, 84, 72],
  [43, 86, 84, 82],
  [43, 86, 84, 83],
  [43, 86, 84, 88],
  [43, 86, 88, 84],
  [43, 87],
  [43, 87, 66, 65, 71],
  [43, 87, 67, 68, 65],
  [43, 87, 67, 72, 71],
  [43, 87, 67, 73, 68],
  [43, 87, 67, 76, 75],
  [43, 87, 67, 80, 78],
  [43, 87, 67, 88, 70],
  [43, 87, 68, 65, 67],
  [43, 87, 68, 73, 82],
  [43, 87, 69, 67, 82],
  [43, 87, 70, 79, 78],
  [43, 87, 75, 80, 68],
  [43, 87, 80, 66, 65],
  [43, 87, 80, 84, 72],
  [43, 87, 82, 76, 75],
  [43, 87, 83, 52, 53],
  [43, 87, 83, 52, 54],
  [43, 87, 83, 53, 48],
  [43, 87, 83, 53, 49],
  [43, 87, 83, 53, 50],
  [43, 87, 83, 53, 51],
  [43, 87, 83, 53, 52],
  [43, 87, 83, 53, 55],
  [43, 87, 83, 53, 56],
  [43, 87, 83, 84, 76],
  [59],
  [65],
  [68],
  [69],
  [72],
  [73],
  [76],
  [77],
  [79],
  [80],
  [81],
  [83, 48],
  [83, 49, 48],
  [83, 51],
  [83, 52],
  [83, 53],
  [83, 54],
  [83, 55],
  [83, 56],
  [84],
  [86],
  [88],
  [90]]

theorem words_differ : words.Nodup := by
  have h : ((words.map fun w => w.foldl (fun v c => 128*v + c) 1).Nodup) := by decide +kernel
  unfold List.Nodup at h ⊢
  rw [List.pairwise_map] at h
  exact h.imp fun hab he => hab (by rw [he])

theorem words_ok : (words.all fun w => !w.contains 0 && w.map upper == w) = true := by
  decide +kernel

/-- C108: every command of spandsp is found, whatever it is followed by, if this does not go on as another one does. -/
theorem command_found (i : Nat) (w rest : List Nat) (hi : words[i]? = some w)
    (hr : ∀ c ∈ rest.head?, ∀ x ∈ words, ¬ w ++ [upper c] <+: x) : search ((tree words).pack 0) 0 0 (w ++ rest) = some (i + 1) := by
  have h := words_ok
  rw [List.all_eq_true] at h
  have h1 : ∀ w ∈ words, 0 ∉ w ∧ w.map upper = w := by
    intro w hw
    have := h w hw
    simp only [Bool.and_eq_true, Bool.not_eq_true', List.contains_eq_mem, decide_eq_false_iff_not, beq_iff_eq] at this
    exact this
  exact word_found words (fun w hw => (h1 w hw).1) words_differ i w rest hi (h1 w (List.mem_of_getElem? hi)).2 hr

/-- C108: the table has room for the tree, and its numbers fit into its elements. -/
theorem table_fits : (tree words).size ≤ 30000 ∧ (((tree words).pack 0).all fun x => decide (x < 32768)) = true := by
  refine ⟨by decide +kernel, by decide +kernel⟩

/-- C108: a command is found in any case of letters and with a value after it: "e1", and the one for "+fclass=1". -/
example : search ((tree words).pack 0) 0 0 [101, 49] = some (words.idxOf [69] + 1) ∧
    search ((tree words).pack 0) 0 0 [43, 102, 99, 108, 97, 115, 115, 61, 49] = some (words.idxOf [43, 70, 67, 76, 65, 83, 83] + 1) := by
  refine ⟨by decide +kernel, by decide +kernel⟩

end At
