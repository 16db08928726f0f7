import Verif.ContactId.Recv

namespace ContactId

/-! ## Digits go out -/

theorem digitFrom_add (c : Char) (p m n : Nat) : digitFrom c p (m + n) = digitFrom c p m ++ digitFrom c (p + m) n := by
  unfold digitFrom
  rw [List.range_add, List.map_append, List.map_map]
  congr 1
  apply List.map_congr_left
  intro i _
  simp [Nat.add_assoc]

theorem digitFrom_length (c : Char) (p n : Nat) : (digitFrom c p n).length = n := by simp [digitFrom]

/-- The samples of waiting digits. -/
def ahead (q : List Char) : List Sig := (q.filter (· ∈ dtmfPositions)).flatMap fun c => digitFrom c 0 880

/-- The samples which are still to come. -/
def Dtmf.todo (d : Dtmf) : List Sig :=
  (match d.cur with | none => [] | some (c, p) => digitFrom c p (880 - p)) ++ ahead d.queue

def Dtmf.Fine (d : Dtmf) : Prop := ∀ c p, d.cur = some (c, p) → p < 880

theorem ahead_cons (c : Char) (q : List Char) :
    ahead (c :: q) = if c ∈ dtmfPositions then digitFrom c 0 880 ++ ahead q else ahead q := by
  unfold ahead
  rw [List.filter_cons]
  by_cases h : c ∈ dtmfPositions
  · simp [h]
  · simp [h]

theorem dtmfLoop_part : ∀ (q : List Char) (room : Nat),
    ahead q = (dtmfLoop q room).2 ++ (dtmfLoop q room).1.todo ∧ (dtmfLoop q room).1.Fine ∧
    (dtmfLoop q room).2.length ≤ room ∧
    ((dtmfLoop q room).2.length < room → (dtmfLoop q room).1 = ⟨[], none⟩) := by
  intro q
  induction q with
  | nil => intro room; exact ⟨rfl, fun c p h => by simp [dtmfLoop] at h, by simp [dtmfLoop], fun _ => rfl⟩
  | cons c q ih =>
    intro room
    rw [ahead_cons, dtmfLoop]
    by_cases hr : room = 0
    · rw [if_pos hr]
      refine ⟨?_, fun c p h => by simp at h, by simp, by simp; omega⟩
      simp [Dtmf.todo, ahead_cons]
    · rw [if_neg hr]
      by_cases hc : c ∈ dtmfPositions
      · rw [if_pos hc, if_pos hc]
        unfold toneGen
        by_cases hl : 880 - 0 > room
        · rw [if_pos hl]
          simp only [Nat.zero_add]
          refine ⟨?_, fun c p h => by simp at h; omega, by simp [digitFrom_length], by simp [digitFrom_length]⟩
          rw [show 880 = room + (880 - room) by omega, digitFrom_add]
          simp [Dtmf.todo]
        · rw [if_neg hl]
          simp only [Nat.sub_zero, digitFrom_length]
          obtain ⟨h1, h2, h3, h4⟩ := ih (room - 880)
          refine ⟨by rw [List.append_assoc, ← h1], h2, ?_, ?_⟩
          · rw [List.length_append, digitFrom_length]; omega
          · intro h
            rw [List.length_append, digitFrom_length] at h
            exact h4 (by omega)
      · rw [if_neg hc, if_neg hc]
        exact ih room

theorem Dtmf.tx_part (d : Dtmf) (hd : d.Fine) (room : Nat) :
    d.todo = (d.tx room).2 ++ (d.tx room).1.todo ∧ (d.tx room).1.Fine ∧ (d.tx room).2.length ≤ room ∧
    ((d.tx room).2.length < room → (d.tx room).1 = ⟨[], none⟩) := by
  obtain ⟨q, cur⟩ := d
  unfold Dtmf.tx
  cases cur with
  | none =>
    have h := dtmfLoop_part q room
    simp only
    exact ⟨by rw [← h.1]; simp [Dtmf.todo], h.2⟩
  | some t =>
    obtain ⟨c, p⟩ := t
    have hp : p < 880 := hd c p rfl
    simp only
    unfold toneGen
    by_cases hl : 880 - p > room
    · rw [if_pos hl]
      simp only
      refine ⟨?_, fun c p h => by simp at h; omega, by simp [digitFrom_length], by simp [digitFrom_length]⟩
      simp only [Dtmf.todo]
      rw [show 880 - p = room + (880 - (p + room)) by omega, digitFrom_add, List.append_assoc]
    · rw [if_neg hl]
      simp only [digitFrom_length]
      obtain ⟨h1, h2, h3, h4⟩ := dtmfLoop_part q (room - (880 - p))
      refine ⟨?_, h2, ?_, ?_⟩
      · simp only [Dtmf.todo]
        rw [List.append_assoc]
        congr 1
      · rw [List.length_append, digitFrom_length]; omega
      · intro h
        rw [List.length_append, digitFrom_length] at h
        exact h4 (by omega)

/-- What a sender has to send. -/
def Sender.todo (s : Sender) : List Sig :=
  match s.step with
  | 0 => if s.cts then List.replicate 2000 .silence ++ s.dtmf.todo else []
  | 1 => List.replicate s.remaining .silence ++ s.dtmf.todo
  | 2 => s.dtmf.todo
  | _ => []

structure Sender.Fine (s : Sender) : Prop where
  step : s.step ≤ 2
  pos : s.step = 1 → 0 < s.remaining
  dtmf : s.dtmf.Fine

/-- What sending leaves alone. -/
def Sender.Same (s t : Sender) : Prop :=
  t.msg = s.msg ∧ t.len = s.len ∧ t.tries = s.tries ∧ t.toneState = s.toneState ∧ t.duration = s.duration ∧
  t.lastHit = s.lastHit ∧ t.inTone = s.inTone ∧ t.timer = s.timer ∧ t.busy = s.busy ∧ t.acc = s.acc

theorem txDigits_part (s : Sender) (hs : s.Fine) (h2 : s.step = 2) (room : Nat) :
    s.dtmf.todo = (s.txDigits room).2 ++ (s.txDigits room).1.todo ∧ (s.txDigits room).1.Fine ∧
    s.Same (s.txDigits room).1 ∧ (s.txDigits room).2.length ≤ room ∧
    ((s.txDigits room).2.length < room → (s.txDigits room).1.todo = []) := by
  unfold Sender.txDigits
  by_cases hr : room = 0
  · rw [if_pos hr]
    exact ⟨by simp [Sender.todo, h2], hs, ⟨rfl, rfl, rfl, rfl, rfl, rfl, rfl, rfl, rfl, rfl⟩, by simp, by simp; omega⟩
  · rw [if_neg hr]
    obtain ⟨h3, h4, h5, h6⟩ := Dtmf.tx_part s.dtmf hs.dtmf room
    simp only
    split
    · rename_i hl
      refine ⟨?_, ⟨by simp, by simp, h4⟩, ⟨rfl, rfl, rfl, rfl, rfl, rfl, rfl, rfl, rfl, rfl⟩, h5, fun _ => by simp [Sender.todo]⟩
      rw [h3, h6 hl]
      simp [Sender.todo, Dtmf.todo, ahead]
    · rename_i hl
      refine ⟨?_, ⟨by simp [h2], by simp [h2], h4⟩, ⟨rfl, rfl, rfl, rfl, rfl, rfl, rfl, rfl, rfl, rfl⟩, h5, fun h => absurd h hl⟩
      simp only [Sender.todo, h2]
      exact h3

theorem txSilence_part (s : Sender) (hs : s.Fine) (h1 : s.step = 1) (room : Nat) (hr : 0 < room) :
    List.replicate s.remaining .silence ++ s.dtmf.todo = (s.txSilence room).2 ++ (s.txSilence room).1.todo ∧
    (s.txSilence room).1.Fine ∧ s.Same (s.txSilence room).1 ∧ 0 < (s.txSilence room).2.length ∧
    (s.txSilence room).2.length ≤ room ∧ ((s.txSilence room).2.length < room → (s.txSilence room).1.todo = []) := by
  have hpos := hs.pos h1
  unfold Sender.txSilence
  simp only
  by_cases hl : s.remaining > room
  · simp only [if_pos hl]
    rw [if_pos (by omega)]
    refine ⟨?_, ⟨by simp [h1], by simp; omega, hs.dtmf⟩, ⟨rfl, rfl, rfl, rfl, rfl, rfl, rfl, rfl, rfl, rfl⟩, by simpa using hr,
      by simp, by simp⟩
    simp only [Sender.todo, h1]
    rw [← List.append_assoc, List.replicate_append_replicate]
    congr 2
    omega
  · simp only [if_neg hl, Nat.sub_self]
    rw [if_neg (by omega)]
    simp only
    obtain ⟨h3, h4, h5, h6, h7⟩ := txDigits_part { s with remaining := 0, step := 2 } ⟨by simp, by simp, hs.dtmf⟩ rfl (room - s.remaining)
    refine ⟨?_, h4, h5, by simp; omega, by simp; omega, ?_⟩
    · rw [List.append_assoc, ← h3]
    · intro h
      rw [List.length_append, List.length_replicate] at h
      exact h7 (by omega)

theorem Sender.tx_part (s : Sender) (hs : s.Fine) (room : Nat) :
    s.todo = (s.tx room).2 ++ (s.tx room).1.todo ∧ (s.tx room).1.Fine ∧ s.Same (s.tx room).1 ∧
    (s.tx room).2.length ≤ room ∧ ((s.tx room).2.length < room → (s.tx room).1.todo = []) := by
  unfold Sender.tx
  by_cases hr : room = 0
  · rw [if_pos hr]
    exact ⟨rfl, hs, ⟨rfl, rfl, rfl, rfl, rfl, rfl, rfl, rfl, rfl, rfl⟩, by simp, by simp; omega⟩
  · rw [if_neg hr]
    have h3 := hs.step
    have hc : s.step = 0 ∨ s.step = 1 ∨ s.step = 2 := by omega
    rcases hc with hc | hc | hc
    · simp only [hc]
      by_cases hcts : s.cts = true
      · rw [if_pos hcts]
        obtain ⟨a1, a2, a3, -, a4, a5⟩ := txSilence_part { s with cts := false, step := 1, remaining := 2000 }
          ⟨by simp, by simp, hs.dtmf⟩ rfl room (by omega)
        refine ⟨?_, a2, a3, a4, a5⟩
        rw [← a1]
        simp only [Sender.todo, hc, hcts, if_true]
      · rw [if_neg hcts]
        refine ⟨rfl, hs, ⟨rfl, rfl, rfl, rfl, rfl, rfl, rfl, rfl, rfl, rfl⟩, by simp, fun _ => ?_⟩
        simp [Sender.todo, hc, hcts]
    · simp only [hc]
      obtain ⟨a1, a2, a3, -, a4, a5⟩ := txSilence_part s hs hc room (by omega)
      refine ⟨?_, a2, a3, a4, a5⟩
      rw [← a1]
      simp only [Sender.todo, hc]
    · simp only [hc]
      obtain ⟨a1, a2, a3, a4, a5⟩ := txDigits_part s hs hc room
      refine ⟨?_, a2, a3, a4, a5⟩
      rw [← a1]
      simp only [Sender.todo, hc]

theorem Sender.calls_part : ∀ (rooms : List Nat) (s : Sender), s.Fine →
    s.todo = (s.calls rooms).2 ++ (s.calls rooms).1.todo ∧ (s.calls rooms).1.Fine ∧
    (s.todo = [] → (s.calls rooms).1.todo = []) ∧
    ((s.calls rooms).1.todo = [] ∨ (s.calls rooms).2.length = rooms.sum) := by
  intro rooms
  induction rooms with
  | nil => intro s h; exact ⟨rfl, h, fun h => h, Or.inr rfl⟩
  | cons n ns ih =>
    intro s h
    obtain ⟨a1, a2, -, a4, a5⟩ := Sender.tx_part s h n
    obtain ⟨b1, b2, b3, b4⟩ := ih _ a2
    simp only [Sender.calls]
    refine ⟨by rw [a1]; conv => lhs; rw [b1]
               rw [List.append_assoc], b2, ?_, ?_⟩
    · intro h0
      rw [h0] at a1
      exact b3 (List.append_eq_nil_iff.mp a1.symm).2
    · rcases b4 with b4 | b4
      · left; exact b4
      · by_cases hn : (s.tx n).2.length < n
        · left; exact b3 (a5 hn)
        · right
          rw [List.length_append, b4, List.sum_cons]
          omega

end ContactId
