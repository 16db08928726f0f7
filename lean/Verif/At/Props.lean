import Verif.At.Spec

/-!
# Command lines are run as they are typed
-/

namespace At

variable {R : Type}

/-! ## A line -/

theorem exec_ends (m : Cmds R) (hm : m.Takes) : ∀ (n : Nat) (r : R) (t : List Nat), t.length < n → ∃ x, exec m n r t = some x := by
  intro n
  induction n with
  | zero => intro r t h; omega
  | succ n ih =>
    intro r t h
    rw [exec]
    split
    · exact ⟨_, rfl⟩
    · split
      · exact ⟨_, rfl⟩
      · split
        · exact ⟨_, rfl⟩
        · exact ⟨_, rfl⟩
        · rename_i r' t' he
          exact ih r' t' (by have := (hm _ _ _ _ _ he).1; omega)

theorem exec_ran (m : Cmds R) (tail : List Nat) : ∀ (ps : List (List Nat)) (r r' : R), Ran m r tail ps r' → ∀ n,
    exec m (ps.length + n) r (ps.flatten ++ tail) = exec m n r' tail := by
  intro ps
  induction ps with
  | nil => intro r r' h n; rw [Ran] at h; subst h; simp
  | cons p ps ih =>
    intro r r' h n
    obtain ⟨h1, h2, h3, r1, h4, h5⟩ := h
    rw [List.length_cons, show ps.length + 1 + n = (ps.length + n) + 1 by omega, List.flatten_cons, List.append_assoc, exec]
    rw [if_neg (by simp [h1]), if_neg (by omega), h4]
    exact ih r1 r' h5 n

/-- C106: the commands of a line are run in order.  If all of them are good there is one response, which is OK.  If one fails
there is one response, which is ERROR, and those after it are not run.  Missing: a command which is not known
(`unknown_ok`). -/
theorem in_order_partial (m : Cmds R) (tail : List Nat) (ps : List (List Nat)) (r r' : R) (h : Ran m r tail ps r') (n : Nat) :
    (tail = [] → exec m (ps.length + n + 1) r (ps.flatten ++ tail) = some (r', some .ok)) ∧
    (∀ r'', tail ≠ [] → 0 < m.search tail → m.search tail ≤ m.count → m.run (m.search tail) r' tail = (r'', .null) →
      exec m (ps.length + n + 1) r (ps.flatten ++ tail) = some (r'', some .error)) ∧
    (∀ r'', tail ≠ [] → 0 < m.search tail → m.search tail ≤ m.count → m.run (m.search tail) r' tail = (r'', .quiet) →
      exec m (ps.length + n + 1) r (ps.flatten ++ tail) = some (r'', none)) := by
  have e := exec_ran m tail ps r r' h (n + 1)
  rw [← Nat.add_assoc] at e
  rw [e]
  refine ⟨?_, ?_, ?_⟩
  · intro h; rw [exec, if_pos h]
  · intro r'' h1 h2 h3 h4
    rw [exec, if_neg h1, if_neg (by omega), h4]
  · intro r'' h1 h2 h3 h4
    rw [exec, if_neg h1, if_neg (by omega), h4]

/-! ## Characters -/

theorem chars_append (m : Cmds R) : ∀ (a : List Nat) (s : State R) (b : List Nat),
    s.chars m (a ++ b) = (s.chars m a).bind fun s => s.chars m b := by
  intro a
  induction a with
  | nil => intro s b; rfl
  | cons c a ih =>
    intro s b
    rw [List.cons_append, State.chars, State.chars]
    cases s.char m c with
    | none => rfl
    | some s => exact ih s b

/-- C105: how the characters are divided into calls does not matter. -/
theorem divided (m : Cmds R) (s : State R) (l : List (List Nat)) : l.foldlM (State.chars m) s = s.chars m l.flatten := by
  induction l generalizing s with
  | nil => rfl
  | cons a l ih =>
    rw [List.foldlM_cons, List.flatten_cons, chars_append]
    cases s.chars m a with
    | none => rfl
    | some s => exact ih s

/-- A character which a line is made of. -/
def Good (c : Nat) : Prop := 0x20 ≤ c ∧ c ≤ 0x7E ∧ ¬ (97 ≤ c ∧ c ≤ 122)

theorem upper_good (c : Nat) (h : 0x20 ≤ c ∧ c ≤ 0x7E) : Good (upper c) := by
  unfold Good upper
  split <;> omega

structure Sound (s : State R) : Prop where
  len : s.line.length ≤ 255
  good : ∀ c ∈ s.line, Good c
  ran : ∀ l ∈ s.ran, l ≠ [] ∧ l.length ≤ 253 ∧ ∀ c ∈ l, Good c

theorem sound_write (s : State R) (c : Nat) (h : Sound s) (hl : s.line.length < 255) (hc : Good c) :
    ∃ s', s.write c = some s' ∧ Sound s' := by
  refine ⟨{ s with line := s.line ++ [c] }, if_pos (by omega), ?_, ?_, h.ran⟩
  · simp; omega
  · intro x hx
    simp only [List.mem_append, List.mem_singleton] at hx
    rcases hx with hx | rfl
    · exact h.good x hx
    · exact hc

theorem sound_clear (s : State R) (h : Sound s) : Sound { s with line := [] } :=
  ⟨by simp, by simp, h.ran⟩

theorem sound_char (m : Cmds R) (hm : m.Takes) (s : State R) (h : Sound s) (x : Nat) : ∃ s', s.char m x = some s' ∧ Sound s' := by
  unfold State.char
  generalize x % 128 = c
  simp only
  by_cases h2 : s.line.length < 2
  · rw [if_pos h2]
    by_cases ha : lower c = 97
    · rw [if_pos ha]
      refine sound_write _ _ (sound_clear s h) (by simp) ?_
      unfold lower at ha; unfold upper Good
      split at ha <;> split <;> omega
    · rw [if_neg ha]
      by_cases h1 : s.line.length = 1
      · rw [if_pos h1]
        by_cases ht : lower c = 116
        · rw [if_pos ht]
          refine sound_write _ _ h (by omega) ?_
          unfold lower at ht; unfold upper Good
          split at ht <;> split <;> omega
        · rw [if_neg ht]
          by_cases hs : c = 47
          · rw [if_pos hs]
            exact sound_write _ _ h (by omega) (by unfold Good; omega)
          · rw [if_neg hs]; exact ⟨_, rfl, sound_clear s h⟩
      · rw [if_neg h1]; exact ⟨_, rfl, h⟩
  · rw [if_neg h2]
    by_cases hp : 0x20 ≤ c ∧ c ≤ 0x7E
    · rw [if_pos hp]
      by_cases hl : s.line.length < 255
      · rw [if_pos hl]; exact sound_write _ _ h hl (upper_good c hp)
      · rw [if_neg hl]; exact ⟨_, rfl, h⟩
    · rw [if_neg hp]
      by_cases h3 : c = m.s3 s.r
      · rw [if_pos h3]
        unfold State.finish
        rw [if_pos (by have := h.len; omega)]
        by_cases hl : s.line.length > 2
        · rw [if_pos hl]
          obtain ⟨⟨r', o⟩, he⟩ := exec_ends m hm (s.line.length - 1) s.r (s.line.drop 2) (by rw [List.length_drop]; omega)
          rw [he]
          refine ⟨_, rfl, by simp, by simp, ?_⟩
          intro l hx
          simp only [List.mem_append, List.mem_singleton] at hx
          rcases hx with hx | rfl
          · exact h.ran l hx
          · refine ⟨?_, ?_, fun c hc => h.good c (List.mem_of_mem_drop hc)⟩
            · intro he; have := congrArg List.length he; simp at this; omega
            · have := h.len; rw [List.length_drop]; omega
        · rw [if_neg hl, if_pos (by omega)]
          exact ⟨_, rfl, by simp, by simp, h.ran⟩
      · rw [if_neg h3]
        by_cases h5 : c = m.s5 s.r
        · rw [if_pos h5]
          exact ⟨_, rfl, by simp only [List.length_dropLast]; have := h.len; omega, fun x hx => h.good x (List.dropLast_subset _ hx), h.ran⟩
        · rw [if_neg h5]; exact ⟨_, rfl, sound_clear s h⟩

theorem sound_chars (m : Cmds R) (hm : m.Takes) : ∀ (l : List Nat) (s : State R), Sound s → ∃ s', s.chars m l = some s' ∧ Sound s' := by
  intro l
  induction l with
  | nil => intro s h; exact ⟨s, rfl, h⟩
  | cons c l ih =>
    intro s h
    obtain ⟨s1, h1, h2⟩ := sound_char m hm s h c
    obtain ⟨s2, h3, h4⟩ := ih s1 h2
    exact ⟨s2, by rw [State.chars, h1]; exact h3, h4⟩

/-- C105: whatever the computer sends, nothing is written beyond the line and every call returns, and what is run is printable,
of capital letters, and neither empty nor longer than 253 characters. -/
theorem safe (m : Cmds R) (hm : m.Takes) (r : R) (l : List Nat) : ∃ s, (State.mk [] r [] []).chars m l = some s ∧
    s.line.length ≤ 255 ∧ ∀ t ∈ s.ran, t ≠ [] ∧ t.length ≤ 253 ∧ ∀ c ∈ t, 0x20 ≤ c ∧ c ≤ 0x7E ∧ ¬ (97 ≤ c ∧ c ≤ 122) := by
  obtain ⟨s, h1, h2⟩ := sound_chars m hm l ⟨[], r, [], []⟩ ⟨by simp, by simp, by simp⟩
  exact ⟨s, h1, h2.len, h2.ran⟩

theorem junk_ok (m : Cmds R) : ∀ (l : List Nat) (s : State R), s.line = [] → (∀ c ∈ l, lower (c % 128) ≠ 97) → s.chars m l = some s := by
  intro l
  induction l with
  | nil => intro s _ _; rfl
  | cons c l ih =>
    intro s h1 h2
    have e : s.char m c = some s := by
      unfold State.char
      simp only
      rw [if_pos (by simp [h1]), if_neg (h2 c (List.mem_cons_self ..)), if_neg (by simp [h1])]
    rw [State.chars, e, Option.bind_some]
    exact ih s h1 (fun x hx => h2 x (List.mem_cons_of_mem _ hx))

theorem body_ok (m : Cmds R) (r : R) (hd : m.s5 r = 8) (h3 : m.s3 r ≠ 8) : ∀ (l : List Nat) (s : State R) (a b : Nat)
    (before : List Nat), s.r = r → s.line = a :: b :: before → before.length ≤ 253 → Proper 8 before l →
    s.chars m l = some { s with line := a :: b :: typed 8 before l } ∧ (typed 8 before l).length ≤ 253 := by
  intro l
  induction l with
  | nil =>
    intro s a b before _ h hl _
    exact ⟨by rw [State.chars, typed, ← h], hl⟩
  | cons c l ih =>
    intro s a b before hr h hl hp
    rw [Proper] at hp
    rw [typed]
    by_cases hc : c = 8
    · subst hc
      rw [if_pos rfl] at hp ⊢
      have e : s.char m 8 = some { s with line := a :: b :: before.dropLast } := by
        unfold State.char
        simp only
        rw [if_neg (by simp [h]), if_neg (by omega), if_neg (by rw [hr]; omega), if_pos (by rw [hr, hd]), h]
        congr 2
        cases before with
        | nil => exact absurd rfl hp.1
        | cons x y => rfl
      obtain ⟨k1, k2⟩ := ih { s with line := a :: b :: before.dropLast } a b before.dropLast hr rfl (by simp; omega) hp.2
      exact ⟨by rw [State.chars, e, Option.bind_some, k1], k2⟩
    · rw [if_neg hc, if_neg hc] at hp
      rw [if_neg hc]
      obtain ⟨⟨p1, p2, p3⟩, hp2⟩ := hp
      have hm : c % 128 = c := by omega
      have e : s.char m c = some { s with line := a :: b :: (before ++ [upper c]) } := by
        unfold State.char
        simp only
        rw [hm, if_neg (by simp [h]), if_pos ⟨p1, p2⟩, if_pos (by simp [h]; omega)]
        unfold State.write
        rw [if_pos (by simp [h]; omega), h]
        rfl
      obtain ⟨k1, k2⟩ := ih { s with line := a :: b :: (before ++ [upper c]) } a b (before ++ [upper c]) hr rfl (by simp; omega) hp2
      exact ⟨by rw [State.chars, e, Option.bind_some, k1], k2⟩

/-- C105: after anything without the letter A, a line is AT in capital or small letters, what is typed, with deletions, and
the end of line character.  It is run once, as what is left of it, and nothing of it stays behind. -/
theorem line_runs (m : Cmds R) (hm : m.Takes) (s : State R) (h5 : m.s5 s.r = 8) (h3 : m.s3 s.r = 13) (hs : s.line = [])
    (junk : List Nat) (hj : ∀ c ∈ junk, c % 128 ≠ 65 ∧ c % 128 ≠ 97) (a t : Nat) (ha : a = 65 ∨ a = 97) (ht : t = 84 ∨ t = 116)
    (body : List Nat) (hb : Proper 8 [] body) :
    ∃ r o, exec m ((typed 8 [] body).length + 1) s.r (typed 8 [] body) = some (r, o) ∧
      s.chars m (junk ++ (a :: t :: (body ++ [13]))) = some ⟨[], r,
        s.ran ++ (if typed 8 [] body = [] then [] else [typed 8 [] body]), s.resp ++ o.toList⟩ := by
  have h1 : s.chars m [a, t] = some { s with line := [65, 84] } := by
    obtain ⟨line, r, ran, resp⟩ := s
    simp only at hs
    subst hs
    rcases ha with rfl | rfl <;> rcases ht with rfl | rfl <;> rfl
  obtain ⟨k1, k2⟩ := body_ok m s.r h5 (by omega) body { s with line := [65, 84] } 65 84 [] rfl rfl (by simp) hb
  generalize typed 8 [] body = left at *
  obtain ⟨⟨r, o⟩, he⟩ := exec_ends m hm (left.length + 1) s.r left (by omega)
  refine ⟨r, o, he, ?_⟩
  rw [chars_append, junk_ok m junk s hs (fun c h => by have := hj c h; unfold lower; split <;> omega), Option.bind_some, show a :: t :: (body ++ [13]) = [a, t] ++ (body ++ [13]) by rfl,
    chars_append, h1, Option.bind_some, chars_append, k1, Option.bind_some, State.chars]
  have e : ({ s with line := 65 :: 84 :: left } : State R).char m 13 = ({ s with line := 65 :: 84 :: left } : State R).finish m := by
    unfold State.char
    simp only
    rw [if_neg (by simp), if_neg (by decide), if_pos (by rw [h3])]
  rw [e]
  unfold State.finish
  simp only
  rw [if_pos (by simp; omega)]
  by_cases hl : left = []
  · subst hl
    rw [exec, if_pos rfl] at he
    cases he
    simp [State.chars]
  · have : left.length ≠ 0 := fun h => hl (List.length_eq_zero_iff.mp h)
    rw [if_pos (by simp; omega), if_neg hl]
    have e2 : (65 :: 84 :: left).length - 1 = left.length + 1 := by simp
    rw [e2]
    show ((exec m (left.length + 1) s.r left).map _).bind _ = _
    rw [he]; rfl

/-- A modem with two commands: E, which takes a digit, and H. -/
def toy : Cmds Nat where
  search t := if t.head? = some 69 then 1 else if t.head? = some 72 then 2 else 0
  count := 2
  run e r t := if e = 1 then (match t with
      | _ :: d :: t => if isDigit d then (d - 48, .next t) else (r, .null)
      | _ => (r, .null))
    else (match t with | _ :: t => (r + 1, .next t) | [] => (r, .null))
  s3 _ := 13
  s5 _ := 8

theorem toy_takes : toy.Takes := by
  intro e r t r' t' h
  simp only [toy] at h
  split at h
  · split at h
    · split at h
      · cases h
        exact ⟨by simp; omega, ⟨[_, _], rfl⟩⟩
      · simp at h
    · simp at h
  · split at h
    · cases h
      exact ⟨by simp, ⟨[_], rfl⟩⟩
    · simp at h

/-- "xaTe7hq", a deletion, and the end. -/
example : Proper 8 [] [101, 55, 104, 113, 8] ∧ typed 8 [] [101, 55, 104, 113, 8] = [69, 55, 72] := by
  refine ⟨?_, by decide⟩
  simp [Proper, upper]

example : ((State.mk [] 0 [] []).chars toy [120, 97, 84, 101, 55, 104, 113, 8, 13]).map (fun s => (s.line, s.r, s.ran, s.resp)) =
    some ([], 8, [[69, 55, 72]], [.ok]) := by decide +kernel

example : Ran toy 0 [69] [[69, 55], [72]] 8 ∧ toy.run (toy.search [69]) 8 [69] = (8, .null) := by
  refine ⟨⟨by decide, by decide, by decide, 7, rfl, by decide, by decide, by decide, 8, rfl, rfl⟩, rfl⟩

/-! ## Numbers -/

theorem digits_ok : ∀ (ds : List Nat) (i : Nat) (rest : List Nat), (∀ c ∈ ds, isDigit c = true) →
    (∀ c ∈ rest.head?, isDigit c = false) → i < 2147483648 →
    digits i (ds ++ rest) = if ds.foldl (fun v c => 10*v + (c - 48)) i < 2147483648 then
      some (ds.foldl (fun v c => 10*v + (c - 48)) i, rest) else none := by
  intro ds
  have mono : ∀ (l : List Nat) (i : Nat), i ≤ l.foldl (fun v c => 10*v + (c - 48)) i := by
    intro l
    induction l with
    | nil => intro i; exact Nat.le_refl _
    | cons c l ih => intro i; rw [List.foldl_cons]; have := ih (10*i + (c - 48)); omega
  induction ds with
  | nil =>
    intro i rest _ hr hi
    rw [List.foldl_nil, if_pos hi, List.nil_append]
    cases rest with
    | nil => rfl
    | cons c l => rw [digits, if_neg (by rw [hr c (by simp)]; decide)]
  | cons c l ih =>
    intro i rest hd hr hi
    rw [List.cons_append, digits, if_pos (hd c (List.mem_cons_self ..)), List.foldl_cons, Nat.mul_comm i 10]
    by_cases h : 10*i + (c - 48) < 2147483648
    · rw [if_pos h]
      exact ih _ rest (fun x hx => hd x (List.mem_cons_of_mem _ hx)) hr h
    · rw [if_neg h, if_neg (by have := mono l (10*i + (c - 48)); omega)]

/-- C107: a decimal number is read as its value, or refused if this is above the limit, and nothing but its digits is taken.
Missing: numbers of 2147483648 and above (`num_overflows`). -/
theorem num_partial (ds rest : List Nat) (max : Nat) (hd : ∀ c ∈ ds, 48 ≤ c ∧ c ≤ 57) (hr : ∀ c ∈ rest.head?, ¬ (48 ≤ c ∧ c ≤ 57))
    (hv : value ds < 2147483648) : parseNum (ds ++ rest) max = some (if value ds > max then -1 else (value ds : Int), rest) := by
  unfold parseNum
  rw [digits_ok ds 0 rest (fun c h => decide_eq_true (hd c h)) (fun c h => decide_eq_false (hr c h)) (by decide)]
  unfold value at *
  rw [if_pos hv]; rfl

example : value [50, 53, 53] = 255 ∧ parseNum [50, 53, 53, 43] 255 = some (255, [43]) ∧ parseNum [50, 53, 54] 255 = some (-1, []) := by decide +kernel

/-- C107: a larger number overflows. -/
theorem num_overflows (ds rest : List Nat) (max : Nat) (hd : ∀ c ∈ ds, 48 ≤ c ∧ c ≤ 57) (hr : ∀ c ∈ rest.head?, ¬ (48 ≤ c ∧ c ≤ 57))
    (hv : 2147483648 ≤ value ds) : parseNum (ds ++ rest) max = none := by
  unfold parseNum
  rw [digits_ok ds 0 rest (fun c h => decide_eq_true (hd c h)) (fun c h => decide_eq_false (hr c h)) (by decide)]
  unfold value at *
  rw [if_neg (by omega)]; rfl

/-- C107: a hexadecimal number of two decimal digits is read as its value.  Missing: the digits A to F (`hex_wrong`). -/
theorem hex_partial (a b max : Nat) (ha : 48 ≤ a ∧ a ≤ 57) (hb : 48 ≤ b ∧ b ≤ 57) (rest : List Nat) :
    parseHex (a :: b :: rest) max = if 16*(a - 48) + (b - 48) > max then -1 else ((16*(a - 48) + (b - 48) : Nat) : Int) := by
  have ha' : isDigit a = true := decide_eq_true ha
  have hb' : isDigit b = true := decide_eq_true hb
  unfold parseHex hexDigit
  simp only [ha', hb', if_true]
  have h : (a - 48)*16 ||| (b - 48) = 16*(a - 48) + (b - 48) := by
    have hb2 : b - 48 < 2^4 := by omega
    have := Nat.two_pow_add_eq_or_of_lt hb2 (a - 48)
    rw [Nat.mul_comm (a - 48) 16]; exact this.symm
  rw [h]

/-! ## What the full claims would need -/

/-- C107: A to F are read as 0 to 5: "FF" is 85. -/
theorem hex_wrong : parseHex [70, 70] 255 = 85 := by decide

/-- C106: a line with a command which is not known is answered with OK, whatever the commands are. -/
theorem unknown_ok (m : Cmds R) (n : Nat) (r : R) (t : List Nat) (h : m.search t = 0) : exec m (n + 1) r t = some (r, some .ok) := by
  rw [exec]
  split
  · rfl
  · rw [if_pos (Or.inl h)]

/-- C105: of a line with more than 253 characters the first 253 are run. -/
theorem long_line (m : Cmds R) (s : State R) (h : s.line.length = 255) (l : List Nat) (hl : ∀ c ∈ l, 0x20 ≤ c ∧ c ≤ 0x7E) :
    s.chars m l = some s := by
  induction l with
  | nil => rfl
  | cons c l ih =>
    have hc := hl c (List.mem_cons_self ..)
    have e : s.char m c = some s := by
      unfold State.char
      simp only
      rw [show c % 128 = c by omega, if_neg (by omega), if_pos hc, if_neg (by omega)]
    rw [State.chars, e, Option.bind_some]
    exact ih (fun x hx => hl x (List.mem_cons_of_mem _ hx))

end At
