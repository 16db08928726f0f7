import Verif.ContactId.Send

/-!
# DTMF digits go out in order
-/

namespace ContactId

/-- What a user does with a DTMF generator. -/
inductive DtmfOp where
  | put (l : List Char)
  | tx (room : Nat)

/-- A history: the generator, the samples which it gave, and the digits which it took. -/
structure DtmfRun where
  d : Dtmf
  out : List Sig
  taken : List Char

def DtmfRun.init : DtmfRun := ⟨⟨[], none⟩, [], []⟩

/-- Digits are taken if `dtmf_tx_put` returns zero. -/
def DtmfRun.op (r : DtmfRun) : DtmfOp → DtmfRun
  | .put l => { r with d := (r.d.put l).1, taken := if (r.d.put l).2 = 0 then r.taken ++ l else r.taken }
  | .tx room => { r with d := (r.d.tx room).1, out := r.out ++ (r.d.tx room).2 }

def DtmfRun.ops (r : DtmfRun) (l : List DtmfOp) : DtmfRun := l.foldl DtmfRun.op r

theorem ahead_append (a b : List Char) : ahead (a ++ b) = ahead a ++ ahead b := by
  simp [ahead]

theorem put_part (d : Dtmf) (l : List Char) :
    ((d.put l).2 = 0 → (d.put l).1.todo = d.todo ++ ahead l) ∧ ((d.put l).2 ≠ 0 → (d.put l).1 = d) ∧ (d.put l).1.cur = d.cur := by
  unfold Dtmf.put
  split
  · refine ⟨fun h => ?_, fun _ => rfl, rfl⟩
    simp only at h
    omega
  · refine ⟨fun _ => ?_, fun h => absurd rfl h, rfl⟩
    simp only [Dtmf.todo, ahead_append, List.append_assoc]

theorem run_part : ∀ (l : List DtmfOp) (r : DtmfRun), r.d.Fine → ahead r.taken = r.out ++ r.d.todo →
    (r.ops l).d.Fine ∧ ahead (r.ops l).taken = (r.ops l).out ++ (r.ops l).d.todo := by
  intro l
  induction l with
  | nil => intro r h1 h2; exact ⟨h1, h2⟩
  | cons o l ih =>
    intro r h1 h2
    rw [DtmfRun.ops, List.foldl_cons]
    apply ih
    · cases o with
      | put m => intro c p h; exact h1 c p (by rw [← (put_part r.d m).2.2]; exact h)
      | tx n => exact (Dtmf.tx_part r.d h1 n).2.1
    · cases o with
      | put m =>
        obtain ⟨p1, p2, -⟩ := put_part r.d m
        simp only [DtmfRun.op]
        by_cases h : (r.d.put m).2 = 0
        · rw [if_pos h, ahead_append, h2, p1 h, List.append_assoc]
        · rw [if_neg h, p2 h, h2]
      | tx n =>
        simp only [DtmfRun.op]
        rw [h2, (Dtmf.tx_part r.d h1 n).1, List.append_assoc]

/-- C95: whatever digits are put, and however samples are asked for, what has gone out is the beginning of the digits
which were taken, each whole and in the order in which they were put.  A call which gives fewer samples than were asked
for has given all of them. -/
theorem digits_in_order (l : List DtmfOp) (room : Nat) :
    (∃ rest, ((DtmfRun.init.ops l).taken.filter (· ∈ dtmfPositions)).flatMap (fun c => digitFrom c 0 880) = (DtmfRun.init.ops l).out ++ rest) ∧
    (((DtmfRun.init.ops l).d.tx room).2.length < room →
      ((DtmfRun.init.ops l).taken.filter (· ∈ dtmfPositions)).flatMap (fun c => digitFrom c 0 880) =
        (DtmfRun.init.ops l).out ++ ((DtmfRun.init.ops l).d.tx room).2) := by
  obtain ⟨h1, h2⟩ := run_part l DtmfRun.init (fun c p h => by simp [DtmfRun.init] at h) rfl
  refine ⟨⟨_, h2⟩, fun h => ?_⟩
  obtain ⟨k1, -, -, k4⟩ := Dtmf.tx_part _ h1 room
  rw [k4 h] at k1
  have : (⟨[], none⟩ : Dtmf).todo = [] := rfl
  rw [this, List.append_nil] at k1
  show ahead _ = _
  rw [h2, k1]

/-- Digits are taken all or not at all, and if not, `dtmf_tx_put` tells how many there is no room for. -/
theorem put_whole (d : Dtmf) (l : List Char) (h : d.queue.length ≤ 128) :
    (d.put l).2 = ((d.queue.length + l.length - 128 : Nat) : Int) ∧ (d.put l).1.queue.length ≤ 128 ∧
    (d.put l).1.queue = if d.queue.length + l.length ≤ 128 then d.queue ++ l else d.queue := by
  unfold Dtmf.put
  split
  · rw [if_neg (by omega)]
    exact ⟨by simp only; omega, h, rfl⟩
  · rw [if_pos (by omega)]
    exact ⟨by simp only; omega, by simp only [List.length_append]; omega, rfl⟩

example : ((DtmfRun.init.ops [.put ['1', 'x', '2'], .tx 1000, .put ['#'], .tx 500, .tx 2000]).out.length = 2640 ∧
    ((DtmfRun.init.ops [.put ['1', 'x', '2'], .tx 1000, .put ['#'], .tx 500, .tx 2000]).out[1760]? = some (.dtmf '#' 0))) := by
  decide +kernel

end ContactId
