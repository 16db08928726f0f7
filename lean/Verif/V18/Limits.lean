import Verif.V18.Props

/-!
# Where V.18 falls short
-/

namespace V18

/-- `##0` is in the table, as a space, but out of order, so that it is never found: its digits stay, nothing is told, and
the next digit makes a copy between areas which overlap. -/
theorem space_lost : ("##0", 32) ∈ toAscii ∧ digits [] "##0".toList = some ("##0".toList, []) ∧
    digits [] "##05".toList = none := by decide +kernel

/-- The same comes of digits which are not in the table. -/
theorem unknown_code_undefined : digits [] "#*0".toList = some ("#*0".toList, []) ∧ dtmfPut (init 8) "#*05".toList = none := by
  decide +kernel

/-- After one of the letters A to D the text is told one character late, and one is told twice. -/
theorem letter_repeats : digits [] "A56".toList = some ("6".toList, [110, 110]) := by decide +kernel

theorem hash_ok (m : List Char) (h : m.length < 257) : digit m '#' = some (m ++ ['#'], []) := by
  unfold digit
  simp [h]

theorem hash_full (m : List Char) (h : ¬ m.length < 257) : digit m '#' = none := by
  unfold digit
  simp [h]

theorem hashes (n : Nat) (h : n ≤ 257) : digits [] (List.replicate n '#') = some (List.replicate n '#', []) := by
  induction n with
  | zero => rfl
  | succ n ih =>
    rw [List.replicate_succ', digits_append, ih (by omega), Option.bind_some, digits,
      hash_ok _ (by rw [List.length_replicate]; omega)]
    rfl

/-- The digit `#` any number of times writes beyond the end of the message. -/
theorem overflow (n : Nat) (h : 257 < n) : digits [] (List.replicate n '#') = none := by
  obtain ⟨k, rfl⟩ : ∃ k, n = 257 + (1 + k) := ⟨n - 258, by omega⟩
  rw [← List.replicate_append_replicate, digits_append, hashes 257 (Nat.le_refl _), Option.bind_some, Nat.add_comm 1 k,
    List.replicate_succ (n := k), digits, hash_full _ (by rw [List.length_replicate]; omega)]
  rfl

example : digits [] (List.replicate 258 '#') = none := overflow 258 (by omega)

/-- The option that repeats the shift before every character is never in force. -/
theorem repeat_never (mode : Nat) : (init mode).repeatShifts = false := by
  have h : mode &&& (0xFFFF - 0x1000) &&& 0x1000 = 0 := by
    rw [Nat.and_assoc]
    exact Nat.and_zero _
  unfold init setModem
  split
  · simp only [h]; rfl
  · rfl

end V18
