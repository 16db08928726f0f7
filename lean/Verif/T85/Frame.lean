import Verif.Qm.Model

/-!
# What the arithmetic encoder has put out before does not matter to it
-/

namespace Qm

def Enc.pre (o : List Nat) (s : Enc) : Enc := { s with out := o ++ s.out }

attribute [local irreducible] u32 sub32

theorem pre_put (o : List Nat) (s : Enc) (b : Nat) : (s.pre o).put b = (s.put b).pre o := by
  unfold Enc.put Enc.pre
  dsimp only
  rw [List.append_assoc]

theorem pre_putStuffed (o : List Nat) (s : Enc) (b : Nat) : (s.pre o).putStuffed b = (s.putStuffed b).pre o := by
  unfold Enc.putStuffed
  split
  · rw [pre_put, pre_put]
  · rw [pre_put]

theorem pre_putBuffer (o : List Nat) (s : Enc) (k : Nat) : (s.pre o).putBuffer k = (s.putBuffer k).pre o := by
  unfold Enc.putBuffer
  show (match s.buffer with
    | some b => (s.pre o).putStuffed (b + k)
    | none => s.pre o) = _
  cases s.buffer with
  | some b => exact pre_putStuffed o s _
  | none => rfl

theorem pre_repeat (o : List Nat) (b n : Nat) (s : Enc) : Nat.repeat (Enc.putStuffed · b) n (s.pre o) = (Nat.repeat (Enc.putStuffed · b) n s).pre o := by
  induction n generalizing s with
  | zero => rfl
  | succ n ih =>
    show Enc.putStuffed (Nat.repeat _ n _) b = (Enc.putStuffed (Nat.repeat _ n _) b).pre o
    rw [ih, pre_putStuffed]

theorem pre_putPending (o : List Nat) (s : Enc) (b : Nat) : (s.pre o).putPending b = (s.putPending b).pre o := by
  unfold Enc.putPending
  show ({ Nat.repeat (Enc.putStuffed · b) s.sc (s.pre o) with sc := 0 } : Enc) = _
  rw [pre_repeat]
  rfl

theorem pre_byteout (o : List Nat) (s : Enc) : byteout (s.pre o) = (byteout s).pre o := by
  unfold byteout
  dsimp only
  rw [show (s.pre o).c = s.c from rfl, pre_putBuffer, pre_putBuffer, pre_putPending, pre_putPending]
  split
  · rfl
  · split <;> rfl

theorem pre_renormeStep (o : List Nat) (s : Enc) : renormeStep (s.pre o) = (renormeStep s).pre o := by
  unfold renormeStep
  dsimp only
  show (if s.ct - 1 = 0 then byteout (Enc.pre o { s with a := u32 (2 * s.a), c := u32 (2 * s.c), ct := s.ct - 1 })
    else Enc.pre o { s with a := u32 (2 * s.a), c := u32 (2 * s.c), ct := s.ct - 1 }) = _
  rw [pre_byteout]
  split <;> rfl

theorem pre_renorme (o : List Nat) (n : Nat) (s : Enc) : renorme n (s.pre o) = (renorme n s).pre o := by
  induction n generalizing s with
  | zero => rfl
  | succ n ih =>
    unfold renorme
    dsimp only
    rw [pre_renormeStep, ih]
    show (if (renormeStep s).a < 0x8000 then _ else _) = _
    split <;> rfl

theorem pre_encode (o : List Nat) (s : Enc) (cx : Cx) (b : Bool) : encode (s.pre o) cx b = (encode s cx b).pre o := by
  have key : ∀ (a c : Nat) (st : Cx → St), renorme 16 { s.pre o with a := a, c := c, st := st } = (renorme 16 { s with a := a, c := c, st := st }).pre o := by
    intro a c st
    exact pre_renorme o 16 { s with a := a, c := c, st := st }
  have e1 : (s.pre o).st = s.st := rfl
  have e2 : (s.pre o).a = s.a := rfl
  have e3 : (s.pre o).c = s.c := rfl
  unfold encode
  dsimp only
  rw [e1, e2, e3]
  by_cases h1 : b ≠ mps (s.st cx)
  · rw [if_pos h1, if_pos h1]
    by_cases h2 : sub32 s.a (lsz (s.st cx)) ≥ lsz (s.st cx)
    · rw [if_pos h2, if_pos h2]
      exact key _ _ _
    · rw [if_neg h2, if_neg h2]
      exact key _ _ _
  · rw [if_neg h1, if_neg h1]
    by_cases h2 : sub32 s.a (lsz (s.st cx)) < 0x8000
    · rw [if_pos h2, if_pos h2]
      by_cases h3 : sub32 s.a (lsz (s.st cx)) < lsz (s.st cx)
      · rw [if_pos h3, if_pos h3]
        exact key _ _ _
      · rw [if_neg h3, if_neg h3]
        exact key _ _ _
    · rw [if_neg h2, if_neg h2]
      rfl

theorem pre_encodeAll (o : List Nat) (l : List (Cx × Bool)) (s : Enc) : encodeAll (s.pre o) l = (encodeAll s l).pre o := by
  induction l generalizing s with
  | nil => rfl
  | cons x l ih =>
    show encodeAll (encode (s.pre o) x.1 x.2) l = (encodeAll (encode s x.1 x.2) l).pre o
    rw [pre_encode, ih]

theorem pre_finalBytes (o : List Nat) (s : Enc) : finalBytes (s.pre o) = (finalBytes s).pre o := by
  have h : ∀ b, (s.putStuffed b).c = s.c := by
    intro b
    unfold Enc.putStuffed
    split <;> rfl
  unfold finalBytes
  dsimp only
  rw [pre_putStuffed]
  show (if s.c &&& 0x7FFF800 ≠ 0 then
      (if (s.putStuffed (s.c / 2 ^ 19 % 256)).c &&& 0x7F800 ≠ 0 then
        ((s.putStuffed (s.c / 2 ^ 19 % 256)).pre o).putStuffed ((s.putStuffed (s.c / 2 ^ 19 % 256)).c / 2 ^ 11 % 256)
      else (s.putStuffed (s.c / 2 ^ 19 % 256)).pre o)
    else s.pre o) = _
  rw [pre_putStuffed]
  split
  · split <;> rfl
  · rfl

theorem pre_finalWrites (o : List Nat) (s : Enc) : finalWrites (s.pre o) = (finalWrites s).pre o := by
  unfold finalWrites finalZeros
  rw [pre_putBuffer, pre_putBuffer, pre_putPending, pre_putPending]
  show finalBytes (if s.c > 0x7FFFFFF then (if (s.putBuffer 1).c &&& 0x7FFF800 ≠ 0 then _ else _) else _) = _
  split
  · split <;> exact pre_finalBytes o _
  · exact pre_finalBytes o _

theorem pre_flush (o : List Nat) (s : Enc) : flush (s.pre o) = (flush s).pre o := pre_finalWrites o { s with c := u32 (clearBits s.c s.a * 2 ^ s.ct) }

theorem putStuffed_st (s : Enc) (b : Nat) : (s.putStuffed b).st = s.st := by
  unfold Enc.putStuffed
  split <;> rfl

theorem putBuffer_st (s : Enc) (b : Nat) : (s.putBuffer b).st = s.st := by
  unfold Enc.putBuffer
  split
  · exact putStuffed_st s _
  · rfl

theorem putPending_st (s : Enc) (b : Nat) : (s.putPending b).st = s.st := by
  unfold Enc.putPending
  show (Nat.repeat (Enc.putStuffed · b) s.sc s).st = s.st
  generalize s.sc = n
  induction n with
  | zero => rfl
  | succ n ih =>
    show (Enc.putStuffed (Nat.repeat (Enc.putStuffed · b) n s) b).st = s.st
    rw [putStuffed_st, ih]

theorem finalBytes_st (s : Enc) : (finalBytes s).st = s.st := by
  unfold finalBytes
  dsimp only
  split
  · split
    · rw [putStuffed_st, putStuffed_st]
    · rw [putStuffed_st]
  · rfl

theorem flush_st (s : Enc) : (flush s).st = s.st := by
  unfold flush finalWrites finalZeros
  rw [finalBytes_st]
  split
  · split
    · rw [putPending_st, putBuffer_st]
    · rw [putBuffer_st]
  · rw [putPending_st, putBuffer_st]

end Qm
