import Verif.Async.Lemmas

/-! # C13, C14: asynchronous serial links -/

namespace Async
open Spec

/-- Bits per character with its parity bit. -/
def width (d : Nat) (p : Parity) : Nat := if p ≠ .none then d + 1 else d

/-- `F` is the frame of the character `c`. -/
def Good (d : Nat) (p : Parity) (c F : BitVec 16) : Prop :=
  (∀ i, i < d → F.getLsbD i = c.getLsbD i) ∧
  (p ≠ .none → (F.getLsbD d).toNat = rxParityBit p c) ∧
  (∀ i, width d p ≤ i → i < 16 → F.getLsbD i = true)

theorem width_le (d : Nat) (p : Parity) : d ≤ width d p := by
  unfold width; split <;> omega

theorem data_eq (d : Nat) (c F : BitVec 16) (hc : ∀ i, d ≤ i → c.getLsbD i = false)
    (hF : ∀ i, i < d → F.getLsbD i = c.getLsbD i) (x : BitVec 16)
    (hx : ∀ i, x.getLsbD i = (F.getLsbD i && decide (i < d))) : x = c := by
  apply BitVec.eq_of_getLsbD_eq
  intro i hi
  rw [hx]
  by_cases h : i < d
  · simp only [h, decide_true, Bool.and_true]; exact hF i h
  · rw [hc i (by omega)]; simp [h]

/-- A good frame is delivered as its character. -/
theorem complete_good (s : Rx) (d : Nat) (c F : BitVec 16) (hw : width d s.parity ≤ 15)
    (ht : s.totalDataBits = width d s.parity) (hc : ∀ i, d ≤ i → c.getLsbD i = false)
    (hf : s.frame = F <<< (16 - s.totalDataBits)) (hg : Good d s.parity c F) :
    rxComplete s = { s with frame := c, out := s.out ++ [(c.toNat : Int)] } := by
  obtain ⟨g1, g2, _⟩ := hg
  unfold rxComplete
  by_cases hp : s.parity ≠ .none
  · rw [if_pos hp]
    have hd : width d s.parity = d + 1 := by rw [width, if_pos hp]
    rw [hd] at ht hw
    simp only [hf, ht]
    rw [data_eq d c F hc g1 _ (uncollect_parity F d (by omega)), parity_pos F d (by omega), g2 hp, if_pos rfl]
    rfl
  · rw [if_neg hp]
    have hd : width d s.parity = d := by rw [width, if_neg hp]
    rw [hd] at ht hw
    simp only [hf, ht]
    rw [data_eq d c F hc g1 _ (uncollect F d (by omega))]
    rfl

/-- The character the transmitter sends for a value. -/
def char (d : Nat) (v : Int) : BitVec 16 := BitVec.ofInt 16 v &&& (0xFFFF#16 >>> (16 - d))

theorem char_hi (d : Nat) (hd : d ≤ 16) (v : Int) : ∀ i, d ≤ i → (char d v).getLsbD i = false := by
  intro i hi
  unfold char
  rw [BitVec.getLsbD_and, ones_shr _ _ hd]
  simp; omega

theorem expectAll_succ (d : Nat) (env : Nat → Answer) (n : Nat) :
    expectAll d env (n + 1) = expectAll d env n ++ expect d (env n) := by
  simp [expectAll, List.range_succ]

theorem expect_char (d : Nat) (hd : d ≤ 16) (a : Answer) (h : ¬ a.value < 0) :
    expect d a = [((char d a.value).toNat : Int)] := by
  unfold expect char
  rw [if_neg h, char_value _ (by omega) _ hd]

/-- The two ends agree. -/
structure Sync (d : Nat) (p : Parity) (stop : Nat) (env : Nat → Answer) (tx : Tx) (rx : Rx) : Prop where
  txd : tx.dataBits = d
  txp : tx.parity = p
  txt : tx.totalDataBits = width d p
  txb : tx.totalBits = width d p + stop
  rxp : rx.parity = p
  rxt : rx.totalDataBits = width d p
  pe : rx.parityErrors = 0
  fe : rx.framingErrors = 0
  pos : (tx.bitpos = 0 ∧ rx.bitpos = 0 ∧ rx.out = expectAll d env tx.fetched) ∨
    ∃ (F : BitVec 16) (k m : Nat), tx.bitpos = k + 1 ∧ k < width d p + stop ∧ tx.frame = F >>> k ∧ tx.fetched = m + 1 ∧
      ¬ (env m).value < 0 ∧ Good d p (char d (env m).value) F ∧
      ((k ≤ width d p ∧ rx.bitpos = k + 1 ∧ rx.frame = F <<< (16 - k) ∧ rx.out = expectAll d env m) ∨
       (width d p < k ∧ rx.bitpos = 0 ∧ rx.out = expectAll d env (m + 1)))

theorem low_bit (F : BitVec 16) (k : Nat) :
    (((F >>> k) &&& 1#16).toNat : Int) = bitInt (F.getLsbD k) := by
  have : (F >>> k) &&& 1#16 = BitVec.ofNat 16 (F.getLsbD k).toNat := by
    apply BitVec.eq_of_getLsbD_eq
    intro i hi
    have h1 : (1#16).getLsbD i = decide (i = 0) := by revert i; decide
    have h2 : (BitVec.ofNat 16 (F.getLsbD k).toNat).getLsbD i = (F.getLsbD k && decide (i = 0)) := by
      cases F.getLsbD k
      · simp
      · simp
    rw [BitVec.getLsbD_and, h1, h2, BitVec.getLsbD_ushiftRight]
    by_cases h : i = 0
    · subst h; simp
    · simp [h]
  rw [this]
  cases F.getLsbD k <;> rfl

/-- Receiving a line bit which is not the last of the character's. -/
theorem rx_data (s : Rx) (F : BitVec 16) (k : Nat) (hk : k < s.totalDataBits) (h16 : s.totalDataBits ≤ 15)
    (hp : s.bitpos = k + 1) (hf : s.frame = F <<< (16 - k)) :
    rxPutBit s (bitInt (F.getLsbD k)) = some { s with frame := F <<< (16 - (k + 1)), bitpos := k + 2 } := by
  unfold rxPutBit
  rw [if_neg (bitInt_nonneg _), if_neg (by omega), if_pos (by omega), hp, hf, collect F k (by omega)]

theorem sync_step (d : Nat) (p : Parity) (stop : Nat) (env : Nat → Answer) (hs : 1 ≤ stop)
    (h16 : width d p + stop ≤ 16) (tx : Tx) (rx : Rx) (h : Sync d p stop env tx rx) :
    ∃ tx' rx' bit, txGetBit env tx = some (tx', bit) ∧ rxPutBit rx bit = some rx' ∧
      Sync d p stop env tx' rx' := by
  have hdw := width_le d p
  obtain ⟨txd, txp, txt, txb, rxp, rxt, pe, fe, pos⟩ := h
  rcases pos with ⟨tp, rp, out⟩ | ⟨F, k, m, tp, hk, tf, fm, hv, hg, pos⟩
  · -- between characters
    have one : rxPutBit rx 1 = some { rx with bitpos := 0, frame := 0 } := by
      simp [rxPutBit, rp]
    unfold txGetBit
    rw [if_pos tp]
    by_cases hpre : tx.presendBits > 0
    · rw [if_pos hpre]
      exact ⟨_, _, _, rfl, one, ⟨txd, txp, txt, txb, rxp, rxt, pe, fe, Or.inl ⟨tp, rfl, out⟩⟩⟩
    · rw [if_neg hpre]
      simp only
      -- whatever `get_byte` asked for, only the presend time changes
      obtain ⟨tx1, e1, t1, t2, t3, t4, t5, t6⟩ : ∃ tx1 : Tx, { tx with fetched := tx.fetched + 1 }.asked (env tx.fetched).presend = tx1 ∧ tx1.dataBits = d ∧ tx1.parity = p ∧
          tx1.totalDataBits = width d p ∧ tx1.totalBits = width d p + stop ∧ tx1.bitpos = 0 ∧
          tx1.fetched = tx.fetched + 1 := by
        refine ⟨_, rfl, ?_⟩
        cases (env tx.fetched).presend <;> exact ⟨txd, txp, txt, txb, tp, rfl⟩
      rw [e1]
      by_cases hv : (env tx.fetched).value < 0
      · rw [if_pos hv]
        by_cases hidle : (env tx.fetched).value ≠ linkIdle
        · rw [if_pos hidle]
          by_cases hin : (env tx.fetched).value ∈ passedOn
          · refine ⟨_, { rx.deliver (env tx.fetched).value with bitpos := 0, frame := 0 }, _, rfl,
              by simp only [rxPutBit, if_pos hv, if_pos hin],
              ⟨t1, t2, t3, t4, rxp, rxt, pe, fe, Or.inl ⟨t5, rfl, ?_⟩⟩⟩
            rw [t6, expectAll_succ, expect, if_pos hv, if_pos hin, ← out]
            rfl
          · refine ⟨_, rx, _, rfl, by simp only [rxPutBit, if_pos hv, if_neg hin],
              ⟨t1, t2, t3, t4, rxp, rxt, pe, fe, Or.inl ⟨t5, rp, ?_⟩⟩⟩
            rw [t6, expectAll_succ, expect, if_pos hv, if_neg hin, List.append_nil, ← out]
        · rw [if_neg hidle]
          refine ⟨_, _, _, rfl, one, ⟨t1, t2, t3, t4, rxp, rxt, pe, fe, Or.inl ⟨t5, rfl, ?_⟩⟩⟩
          have he : (env tx.fetched).value = linkIdle := Decidable.not_not.mp hidle
          rw [t6, expectAll_succ, expect, if_pos hv, he, if_neg (by decide), List.append_nil, ← out]
      · rw [if_neg hv]
        obtain ⟨F, eF, hF⟩ := txFrame_bits tx1 (env tx.fetched).value (by rw [t1, t2, t3]; rfl) (by omega)
        rw [eF]
        refine ⟨_, { rx with bitpos := 1, frame := 0 }, 0, rfl, by simp [rxPutBit, rp],
          ⟨t1, t2, t3, t4, rxp, rxt, pe, fe, Or.inr ⟨F, 0, tx.fetched, ?_, by omega, ?_, t6, hv, ?_, Or.inl ?_⟩⟩⟩
        · simp [t5]
        · simp
        · rw [t1, t2, t3] at hF; exact hF
        · refine ⟨by omega, rfl, ?_, out⟩
          apply BitVec.eq_of_getLsbD_eq
          intro i hi
          rw [BitVec.getLsbD_shiftLeft]
          simp [hi]
  · -- inside a character
    have hget : txGetBit env tx = some
        ({ tx with frame := F >>> (k + 1), bitpos := if k + 2 > width d p + stop then 0 else k + 2 },
          bitInt (F.getLsbD k)) := by
      unfold txGetBit
      rw [if_neg (by omega), tf, low_bit, tp, txb, ← BitVec.shiftRight_add]
    have hnb := bitInt_nonneg (F.getLsbD k)
    rcases pos with ⟨hkt, rp, rf, out⟩ | ⟨hkt, rp, out⟩
    · by_cases hlt : k < width d p
      · refine ⟨_, _, _, hget, rx_data rx F k (by omega) (by omega) rp rf,
          ⟨txd, txp, txt, txb, rxp, rxt, pe, fe, Or.inr ⟨F, k + 1, m, ?_, by omega, rfl, fm, hv, hg,
            Or.inl ⟨by omega, rfl, rfl, out⟩⟩⟩⟩
        show (if _ then _ else _) = _
        rw [if_neg (by omega)]
      · -- the first stop bit
        have hk' : k = width d p := by omega
        have hb : F.getLsbD k = true := hg.2.2 k (by omega) (by omega)
        have hcomp := complete_good rx d _ F (by rw [rxp]; omega) (by rw [rxt, rxp])
          (char_hi d (by omega) (env m).value) (by rw [rf, rxt, hk']) (by rw [rxp]; exact hg)
        have hput : rxPutBit rx (bitInt (F.getLsbD k)) = some { rxComplete rx with bitpos := 0 } := by
          rw [hb]
          unfold rxPutBit bitInt
          simp only [if_true]
          rw [if_neg (by omega), if_neg (by omega), if_neg (by omega), if_neg (by simp), if_neg (by omega)]
        refine ⟨_, _, _, hget, hput, ⟨txd, txp, txt, txb, by simp [hcomp, rxp], by simp [hcomp, rxt],
          by simp [hcomp, pe], by simp [hcomp, fe], ?_⟩⟩
        have hout : (rxComplete rx).out = expectAll d env (m + 1) := by
          rw [hcomp, expectAll_succ, expect_char d (by omega) _ hv, ← out]
        by_cases hend : k + 2 > width d p + stop
        · exact Or.inl ⟨by simp [hend], rfl, by simp only [fm]; exact hout⟩
        · exact Or.inr ⟨F, k + 1, m, by simp only [if_neg hend], by omega, rfl, fm, hv, hg,
            Or.inr ⟨by omega, rfl, hout⟩⟩
    · -- the other stop bits
      have hb : F.getLsbD k = true := hg.2.2 k (by omega) (by omega)
      have hput : rxPutBit rx (bitInt (F.getLsbD k)) = some { rx with bitpos := 0, frame := 0 } := by
        rw [hb]
        simp [rxPutBit, bitInt, rp]
      refine ⟨_, _, _, hget, hput, ⟨txd, txp, txt, txb, rxp, rxt, pe, fe, ?_⟩⟩
      by_cases hend : k + 2 > width d p + stop
      · exact Or.inl ⟨by simp [hend], rfl, by simp only [fm]; exact out⟩
      · exact Or.inr ⟨F, k + 1, m, by simp only [if_neg hend], by omega, rfl, fm, hv, hg,
          Or.inr ⟨by omega, rfl, out⟩⟩

/-- C13. Whatever the sender's `get_byte` answers (characters of any value, idling, status codes,
presend times), after any number of line bits the receiver has been told exactly what the answers
so far amount to, in order and each once - except for a character which is still being sent -
and it has counted no errors. The limits are those of the 16 bit shift registers. -/
theorem async_loopback (d : Nat) (p : Parity) (stop : Nat) (v14 : Bool) (env : Nat → Answer)
    (hs : 1 ≤ stop) (h16 : d + (if p = .none then 0 else 1) + stop ≤ 16) (n : Nat) :
    ∃ tx rx, loop env n (txInit d p stop, rxInit d p v14) = some (tx, rx) ∧
      rx.parityErrors = 0 ∧ rx.framingErrors = 0 ∧
      (rx.out = expectAll d env tx.fetched ∨
        (tx.bitpos ≠ 0 ∧ rx.out = expectAll d env (tx.fetched - 1))) := by
  have h16' : width d p + stop ≤ 16 := by
    unfold width; split at h16 <;> rename_i h <;> simp [h] <;> omega
  have key : ∃ tx rx, loop env n (txInit d p stop, rxInit d p v14) = some (tx, rx) ∧
      Sync d p stop env tx rx := by
    induction n with
    | zero =>
      exact ⟨_, _, rfl, ⟨rfl, rfl, rfl, rfl, rfl, rfl, rfl, rfl, Or.inl ⟨rfl, rfl, rfl⟩⟩⟩
    | succ n ih =>
      obtain ⟨tx, rx, e, h⟩ := ih
      obtain ⟨tx', rx', bit, e1, e2, h'⟩ := sync_step d p stop env hs h16' tx rx h
      exact ⟨tx', rx', by simp [loop, e, e1, e2], h'⟩
  obtain ⟨tx, rx, e, h⟩ := key
  refine ⟨tx, rx, e, h.pe, h.fe, ?_⟩
  rcases h.pos with ⟨_, _, out⟩ | ⟨F, k, m, tp, _, _, fm, _, _, pos⟩
  · exact Or.inl out
  · rcases pos with ⟨_, _, _, out⟩ | ⟨_, _, out⟩
    · exact Or.inr ⟨by omega, by rw [fm]; exact out⟩
    · exact Or.inl (by rw [fm]; exact out)

/-- Further to C13: nothing stalls. If no presend time is asked for, `get_byte` has been called at
least once for each `1 + data + parity + stop` bits sent so far (or part thereof). -/
theorem async_keeps_fetching (d : Nat) (p : Parity) (stop : Nat) (env : Nat → Answer)
    (hs : 1 ≤ stop) (henv : ∀ i, (env i).presend = none) (n : Nat) (tx : Tx) (bits : List Int) :
    take env n (txInit d p stop) = some (tx, bits) →
    bits.length = n ∧ n ≤ tx.fetched * (1 + d + (if p = .none then 0 else 1) + stop) := by
  have hw : d + (if p = .none then 0 else 1) = width d p := by
    unfold width; split <;> rename_i h <;> simp [h]
  rw [show 1 + d + (if p = .none then 0 else 1) + stop = width d p + stop + 1 by omega]
  have gen : ∀ (n m : Nat) (s : Tx) (bits : List Int), s.presendBits = 0 → s.totalBits = width d p + stop →
      s.bitpos ≤ s.totalBits →
      (s.bitpos = 0 → m ≤ s.fetched * (width d p + stop + 1)) →
      (s.bitpos ≠ 0 → m + (width d p + stop + 1 - s.bitpos) ≤ s.fetched * (width d p + stop + 1)) →
      take env n s = some (tx, bits) →
      bits.length = n ∧ m + n ≤ tx.fetched * (width d p + stop + 1) := by
    intro n
    induction n with
    | zero =>
      intro m s bits _ _ _ h0 h1 e
      simp only [take, Option.some.injEq, Prod.mk.injEq] at e
      obtain ⟨rfl, rfl⟩ := e
      refine ⟨rfl, ?_⟩
      by_cases hb : s.bitpos = 0
      · exact h0 hb
      · have := h1 hb; omega
    | succ n ih =>
      intro m s bits hp ht hle h0 h1 e
      simp only [take] at e
      cases hg : txGetBit env s with
      | none => rw [hg] at e; cases e
      | some r =>
        obtain ⟨s', b⟩ := r
        rw [hg] at e
        simp only [Option.bind_eq_bind, Option.bind_some] at e
        cases ht' : take env n s' with
        | none => rw [ht'] at e; cases e
        | some r =>
          obtain ⟨tx', bs⟩ := r
          rw [ht'] at e
          simp only [Option.bind_some, Option.pure_def, Option.some.injEq, Prod.mk.injEq] at e
          obtain ⟨rfl, rfl⟩ := e
          have key : bs.length = n ∧ m + 1 + n ≤ tx'.fetched * (width d p + stop + 1) := by
            unfold txGetBit at hg
            by_cases hb : s.bitpos = 0
            · have h0' := h0 hb
              have hm : (s.fetched + 1) * (width d p + stop + 1) =
                s.fetched * (width d p + stop + 1) + (width d p + stop + 1) := Nat.succ_mul _ _
              rw [if_pos hb, if_neg (by omega)] at hg
              simp only [henv, Tx.asked] at hg
              split at hg
              · split at hg <;>
                · simp only [Option.some.injEq, Prod.mk.injEq] at hg
                  obtain ⟨rfl, rfl⟩ := hg
                  refine ih (m + 1) { s with fetched := s.fetched + 1 } _ hp ht hle ?_ (fun h => absurd hb h) ht'
                  intro _; simp only [hm]; omega
              · cases hf : txFrame { s with fetched := s.fetched + 1 } (env s.fetched).value with
                | none => rw [hf] at hg; cases hg
                | some f =>
                  rw [hf] at hg
                  simp only [Option.bind_eq_bind, Option.bind_some, Option.pure_def, Option.some.injEq, Prod.mk.injEq] at hg
                  obtain ⟨rfl, rfl⟩ := hg
                  refine ih (m + 1) { s with frame := f, bitpos := s.bitpos + 1, fetched := s.fetched + 1 } _
                    hp ht ?_ (fun h => by simp at h) ?_ ht'
                  · simp only; omega
                  · intro _; simp only [hm, hb]; omega
            · have h1' := h1 hb
              rw [if_neg hb] at hg
              simp only [Option.some.injEq, Prod.mk.injEq] at hg
              obtain ⟨rfl, rfl⟩ := hg
              refine ih (m + 1) { s with frame := s.frame >>> 1, bitpos := if s.bitpos + 1 > s.totalBits then 0 else s.bitpos + 1 } _ hp ht ?_ ?_ ?_ ht'
              · simp only; split <;> omega
              · simp only; intro h; split at h <;> omega
              · simp only; intro h; split at h
                · exact absurd rfl h
                · rename_i hc; rw [if_neg hc]; omega
          exact ⟨by simp [key.1], by omega⟩
  intro e
  have := gen n 0 (txInit d p stop) bits rfl
    (by simp only [txInit, width]) (Nat.zero_le _) (fun _ => Nat.zero_le _)
    (fun h => absurd rfl h) e
  simpa using this

/-- 7 data bits, even parity, 2 stop bits: two characters with an idle bit, a presend time and a
status code, in 27 line bits. -/
example : (loop (fun i => if i = 0 then ⟨0x41, none⟩ else if i = 1 then ⟨-17, some 2⟩
      else if i = 2 then ⟨0x7F, none⟩ else if i = 3 then ⟨-7, none⟩ else ⟨-17, none⟩) 26
      (txInit 7 .even 2, rxInit 7 .even false)).map (fun x => (x.1.fetched, x.2.out)) =
    some (4, [0x41, 0x7F, -7]) := by decide +kernel

/-! ## C14 -/

theorem feed_append (s : Rx) (a b : List Int) : feed s (a ++ b) = (feed s a).bind fun s => feed s b := by
  induction a generalizing s with
  | nil => rfl
  | cons x a ih =>
    simp only [List.cons_append, feed]
    cases rxPutBit s x with
    | none => rfl
    | some s' => exact ih s'

/-- The line bits of a frame. -/
def lineBits (F : BitVec 16) (n : Nat) : List Int := (List.range n).map fun i => bitInt (F.getLsbD i)

theorem feed_data (s : Rx) (F : BitVec 16) (h15 : s.totalDataBits ≤ 15) (hp : s.bitpos = 1) (hf : s.frame = 0)
    (k : Nat) (hk : k ≤ s.totalDataBits) :
    feed s (lineBits F k) = some { s with frame := F <<< (16 - k), bitpos := k + 1 } := by
  induction k with
  | zero =>
    simp only [lineBits, List.range_zero, List.map_nil, feed]
    congr 1
    have : F <<< (16 - 0) = 0 := by
      apply BitVec.eq_of_getLsbD_eq; intro i hi; rw [BitVec.getLsbD_shiftLeft]; simp [hi]
    rw [this, ← hf, Nat.zero_add, ← hp]
  | succ k ih =>
    have : lineBits F (k + 1) = lineBits F k ++ [bitInt (F.getLsbD k)] := by
      simp [lineBits, List.range_succ]
    rw [this, feed_append, ih (by omega)]
    simp only [Option.bind_some, feed]
    rw [rx_data { s with frame := F <<< (16 - k), bitpos := k + 1 } F k (Nat.lt_of_succ_le hk) h15 rfl rfl]
    rfl

/-- The line bits the transmitter makes of one character. -/
theorem take_frame (env : Nat → Answer) (s : Tx) (F : BitVec 16) (n k : Nat) (hp : s.bitpos = k + 1)
    (hf : s.frame = F >>> k) (hn : k + n = s.totalBits) :
    ∃ s', take env n s = some (s', (List.range n).map fun i => bitInt (F.getLsbD (k + i))) ∧
      (0 < n → s' = { s with frame := F >>> (k + n), bitpos := 0 }) := by
  induction n generalizing s k with
  | zero => exact ⟨s, rfl, fun h => absurd h (by omega)⟩
  | succ n ih =>
    have hget : txGetBit env s = some
        ({ s with frame := F >>> (k + 1), bitpos := if k + 2 > s.totalBits then 0 else k + 2 },
          bitInt (F.getLsbD k)) := by
      unfold txGetBit
      rw [if_neg (by omega), hf, low_bit, hp, ← BitVec.shiftRight_add]
    have hmap : ((List.range (n + 1)).map fun i => bitInt (F.getLsbD (k + i))) =
        bitInt (F.getLsbD k) :: (List.range n).map fun i => bitInt (F.getLsbD (k + 1 + i)) := by
      rw [List.range_succ_eq_map]
      simp only [List.map_cons, List.map_map, Nat.add_zero]
      congr 1
      apply List.map_congr_left
      intro i _
      simp only [Function.comp]
      congr 2
      omega
    by_cases h0 : n = 0
    · subst h0
      rw [hmap]
      refine ⟨_, by simp only [take, hget]; rfl, fun _ => ?_⟩
      simp only
      rw [if_pos (by omega)]
    · obtain ⟨s', e, h'⟩ := ih { s with frame := F >>> (k + 1), bitpos := k + 2 } (k + 1) rfl rfl
        (by simp only; omega)
      rw [hmap]
      refine ⟨s', ?_, fun _ => ?_⟩
      · simp only [take, hget]
        rw [if_neg (by omega)]
        simp [e]
      · rw [h' (by omega)]
        simp only
        congr 2
        omega

theorem parity_flip : ∀ x : BitVec 8, ∀ j : Fin 8,
    BitOps.parity8 (x ^^^ BitVec.twoPow 8 j) = 1 - BitOps.parity8 x := by decide +kernel

theorem parityBit_flip (p : Parity) (hp : p = .odd ∨ p = .even) (c : BitVec 16) (j : Nat) (hj : j < 8) :
    rxParityBit p (c ^^^ BitVec.twoPow 16 j) = 1 - rxParityBit p c := by
  have e : (c ^^^ BitVec.twoPow 16 j).setWidth 8 = c.setWidth 8 ^^^ BitVec.twoPow 8 j := by
    apply BitVec.eq_of_getLsbD_eq
    intro i hi
    have h16 : i < 16 := by omega
    rw [BitVec.getLsbD_xor, BitVec.getLsbD_setWidth, BitVec.getLsbD_xor, BitVec.getLsbD_setWidth,
      BitVec.getLsbD_twoPow, BitVec.getLsbD_twoPow]
    have h1 : j < 16 := by omega
    bdec [hi, h16, hj, h1]
  have h := parity_flip (c.setWidth 8) ⟨j, hj⟩
  rcases hp with rfl | rfl
  · simp only [rxParityBit, e]
    rw [h]
    rcases parity8_le (c.setWidth 8) with h | h <;> rw [h] <;> decide
  · simp only [rxParityBit, e]
    exact h

/-- A completed frame whose parity bit is wrong. -/
theorem complete_bad (s : Rx) (d : Nat) (F : BitVec 16) (hd : d ≤ 15) (hp : s.parity ≠ .none)
    (ht : s.totalDataBits = d + 1) (hf : s.frame = F <<< (16 - s.totalDataBits)) (c : BitVec 16)
    (hc : ∀ i, c.getLsbD i = (F.getLsbD i && decide (i < d)))
    (hbad : (F.getLsbD d).toNat ≠ rxParityBit s.parity c) :
    rxComplete s = { s with frame := c, parityErrors := s.parityErrors + 1 } := by
  have e : ((F <<< (16 - (d + 1))) &&& 0x7FFF#16) >>> (16 - (d + 1)) = c := by
    apply BitVec.eq_of_getLsbD_eq
    intro i _
    rw [uncollect_parity F d hd, hc]
  unfold rxComplete
  rw [if_pos hp]
  simp only [hf, ht]
  rw [e, parity_pos F d (by omega), if_neg hbad]

theorem feed_ones (s : Rx) (h : s.bitpos = 0) (n : Nat) :
    feed s (List.replicate n 1) = some (if n = 0 then s else { s with frame := 0 }) := by
  induction n generalizing s with
  | zero => rfl
  | succ n ih =>
    rw [List.replicate_succ]
    have : rxPutBit s 1 = some { s with frame := 0 } := by
      simp [rxPutBit, h]
    simp only [feed, this]
    show feed _ _ = _
    rw [ih { s with frame := 0 } h]
    simp

/-- The bits of one character as sent: a start bit, the frame, and a return to idle. -/
theorem async_one_character (d : Nat) (p : Parity) (stop : Nat) (env : Nat → Answer) (s : Tx)
    (hs : 1 ≤ stop) (h16 : width d p + stop ≤ 16) (h1 : s.dataBits = d) (h2 : s.parity = p)
    (h3 : s.totalDataBits = width d p) (h4 : s.totalBits = width d p + stop) (h5 : s.bitpos = 0)
    (h6 : s.presendBits ≤ 0) (hv : 0 ≤ (env s.fetched).value) :
    ∃ F s', Good d p (char d (env s.fetched).value) F ∧
      take env (1 + width d p + stop) s = some (s', 0 :: lineBits F (width d p + stop)) ∧
      s'.bitpos = 0 ∧ s'.fetched = s.fetched + 1 := by
  obtain ⟨tx1, e1, t1, t2, t3, t4, t5, t6⟩ : ∃ tx1 : Tx, { s with fetched := s.fetched + 1 }.asked (env s.fetched).presend = tx1 ∧ tx1.dataBits = d ∧ tx1.parity = p ∧
      tx1.totalDataBits = width d p ∧ tx1.totalBits = width d p + stop ∧ tx1.bitpos = 0 ∧
      tx1.fetched = s.fetched + 1 := by
    refine ⟨_, rfl, ?_⟩
    cases (env s.fetched).presend <;> exact ⟨h1, h2, h3, h4, h5, rfl⟩
  obtain ⟨F, eF, hF⟩ := txFrame_bits tx1 (env s.fetched).value (by rw [t1, t2, t3]; rfl) (by omega)
  rw [t1, t2, t3] at hF
  have hget : txGetBit env s = some ({ tx1 with frame := F, bitpos := 1 }, 0) := by
    unfold txGetBit
    rw [if_pos h5, if_neg (by omega)]
    simp only
    rw [e1, if_neg (by omega), eF, t5]
    rfl
  obtain ⟨s', e, h'⟩ := take_frame env { tx1 with frame := F, bitpos := 1 } F (width d p + stop) 0 rfl
    (by simp) (by simp [t4])
  refine ⟨F, s', hF, ?_, ?_, ?_⟩
  · rw [show 1 + width d p + stop = (width d p + stop) + 1 by omega]
    simp only [take, hget]
    simp [e, lineBits]
  · rw [h' (by omega)]
  · rw [h' (by omega)]; exact t6

/-- C14. Take the line bits the transmitter makes of any character of up to 8 data bits, with odd
or even parity, and flip any one of the data bits or the parity bit (positions 1 to `d + 1`; 0 is
the start bit). The receiver delivers nothing, counts one parity error and no framing error, and
is ready for the next character. -/
theorem async_detects_single_bit_errors (d : Nat) (p : Parity) (stop : Nat) (v14 : Bool)
    (hd : d ≤ 8) (hp : p = .odd ∨ p = .even) (hs : 1 ≤ stop) (h16 : d + 1 + stop ≤ 16)
    (env : Nat → Answer) (hv : 0 ≤ (env 0).value) (j : Nat) (hj : 1 ≤ j) (hj' : j ≤ d + 1) :
    ∃ tx bits rx, take env (1 + (d + 1) + stop) (txInit d p stop) = some (tx, bits) ∧
      bits.length = 1 + (d + 1) + stop ∧
      feed (rxInit d p v14) (flip bits j) = some rx ∧
      rx.out = [] ∧ rx.parityErrors = 1 ∧ rx.framingErrors = 0 ∧ rx.bitpos = 0 := by
  have hpn : p ≠ .none := by rcases hp with rfl | rfl <;> decide
  have hw : width d p = d + 1 := by rw [width, if_pos hpn]
  obtain ⟨F, tx, hg, ht, _, _⟩ := async_one_character d p stop env (txInit d p stop) hs (by omega)
    rfl rfl rfl rfl rfl (by simp [txInit]) hv
  rw [hw] at ht
  let F' := F ^^^ BitVec.twoPow 16 (j - 1)
  have hF' : ∀ i, i < 16 → F'.getLsbD i = (F.getLsbD i ^^ decide (j - 1 = i)) := by
    intro i hi
    have h1 : j - 1 < 16 := by omega
    rw [BitVec.getLsbD_xor, BitVec.getLsbD_twoPow]
    bdec [h1]
  -- the flipped line bits are those of `F'`
  have hbits : flip (0 :: lineBits F (d + 1 + stop)) j =
      0 :: (lineBits F' (d + 1) ++ 1 :: List.replicate (stop - 1) 1) := by
    obtain ⟨j, rfl⟩ : ∃ k, j = k + 1 := ⟨j - 1, by omega⟩
    have e : 1 :: List.replicate (stop - 1) (1 : Int) = List.replicate stop 1 := by
      rw [← List.replicate_succ]; congr 1; omega
    rw [e]
    show 0 :: (lineBits F (d + 1 + stop)).modify j (1 - ·) = _
    congr 1
    apply List.ext_getElem
    · simp [lineBits]
    · intro i h1 h2
      have hi : i < d + 1 + stop := by simpa [lineBits] using h1
      rw [List.getElem_modify]
      have hl : (lineBits F (d + 1 + stop))[i]'(by simpa [lineBits] using hi) = bitInt (F.getLsbD i) := by
        simp [lineBits]
      rw [hl, List.getElem_append]
      have hF := hF' i (by omega)
      simp only [Nat.add_sub_cancel] at hF
      split
      · rename_i hji
        have h3 : i < (lineBits F' (d + 1)).length := by simp [lineBits]; omega
        rw [dif_pos h3]
        simp only [lineBits, List.getElem_map, List.getElem_range]
        rw [hF]
        cases F.getLsbD i <;> simp [hji, bitInt]
      · rename_i hji
        split
        · simp only [lineBits, List.getElem_map, List.getElem_range]
          rw [hF]
          simp [hji]
        · rename_i h3
          have h3' : d + 1 ≤ i := by simpa [lineBits] using h3
          rw [List.getElem_replicate, hg.2.2 i (by omega) (by omega)]
          rfl
  -- and the receiver sees the wrong parity
  let c' : BitVec 16 := F' &&& (0xFFFF#16 >>> (16 - d))
  have hc' : ∀ i, c'.getLsbD i = (F'.getLsbD i && decide (i < d)) := by
    intro i
    rw [BitVec.getLsbD_and, ones_shr d i (by omega)]
  have hbad : (F'.getLsbD d).toNat ≠ rxParityBit p c' := by
    have hgp := hg.2.1 hpn
    by_cases hjd : j - 1 = d
    · have e : c' = char d (env 0).value := by
        apply BitVec.eq_of_getLsbD_eq
        intro i hi
        rw [hc']
        by_cases h : i < d
        · have : ¬ j - 1 = i := by omega
          rw [hF' i hi]
          bdec [this, h]
          exact hg.1 i h
        · rw [char_hi d (by omega) _ i (by omega)]; simp [h]
      rw [e, hF' d (by omega)]
      rw [show (env (txInit d p stop).fetched) = env 0 from rfl] at hgp
      rw [← hgp]
      cases F.getLsbD d <;> simp [hjd]
    · have e : c' = char d (env 0).value ^^^ BitVec.twoPow 16 (j - 1) := by
        apply BitVec.eq_of_getLsbD_eq
        intro i hi
        rw [hc', hF' i hi, BitVec.getLsbD_xor, BitVec.getLsbD_twoPow]
        have h1 : j - 1 < 16 := by omega
        by_cases h : i < d
        · bdec [h, h1]
          rw [hg.1 i h]; rfl
        · rw [char_hi d (by omega) _ i (by omega)]
          have : ¬ j - 1 = i := by omega
          bdec [h, this]
      rw [e, parityBit_flip p hp _ _ (by omega), hF' d (by omega)]
      rw [show (env (txInit d p stop).fetched) = env 0 from rfl] at hgp
      rw [← hgp]
      cases F.getLsbD d <;> simp [hjd]
  have hstart : rxPutBit (rxInit d p v14) 0 = some { rxInit d p v14 with bitpos := 1 } := by
    simp [rxPutBit, rxInit]
  have htd : (rxInit d p v14).totalDataBits = d + 1 := by simp [rxInit, hpn]
  have hfeed : feed (rxInit d p v14) (flip (0 :: lineBits F (d + 1 + stop)) j) = some
      (if stop - 1 = 0 then { rxInit d p v14 with frame := c', parityErrors := 1, bitpos := 0 }
       else { rxInit d p v14 with frame := 0, parityErrors := 1, bitpos := 0 }) := by
    rw [hbits]
    simp only [feed, hstart]
    show feed { rxInit d p v14 with bitpos := 1 } _ = _
    rw [feed_append, feed_data { rxInit d p v14 with bitpos := 1 } F' (by simp only [htd]; omega) rfl rfl
      (d + 1) (by simp only [htd]; omega)]
    simp only [Option.bind_some, feed]
    rw [show rxPutBit { rxInit d p v14 with frame := F' <<< (16 - (d + 1)), bitpos := d + 1 + 1 } 1 =
        some { rxComplete { rxInit d p v14 with frame := F' <<< (16 - (d + 1)), bitpos := d + 1 + 1 } with
          bitpos := 0 } by
      unfold rxPutBit
      simp only [htd]
      rw [if_neg (by omega), if_neg (by omega), if_neg (by omega), if_neg (by simp), if_neg (by omega)]
      rfl]
    rw [complete_bad { rxInit d p v14 with frame := F' <<< (16 - (d + 1)), bitpos := d + 1 + 1 } d F'
      (by omega) hpn htd (by simp only [htd]) c' hc' hbad]
    show feed { rxInit d p v14 with frame := c', parityErrors := 1, bitpos := 0 } _ = _
    rw [feed_ones _ rfl]
  refine ⟨tx, _, _, ht, by simp [lineBits]; omega, hfeed, ?_⟩
  split <;> simp [rxInit]

/-- 7 data bits and odd parity, and bit 3 of the character 0x41 flipped on the line. -/
example : ∃ tx bits rx, take (fun _ => ⟨0x41, none⟩) 10 (txInit 7 .odd 1) = some (tx, bits) ∧
    bits = [0, 1, 0, 0, 0, 0, 0, 1, 1, 1] ∧ flip bits 4 = [0, 1, 0, 0, 1, 0, 0, 1, 1, 1] ∧
    feed (rxInit 7 .odd false) (flip bits 4) = some rx ∧ rx.parityErrors = 1 := by
  refine ⟨_, _, _, rfl, by decide +kernel, by decide +kernel, rfl, by decide +kernel⟩

/-- With more than 8 data bits the parity bit does not cover the rest: 9 data bits, even parity,
and the top data bit flipped. The wrong character is delivered. -/
theorem async_parity_misses_bit_8 :
    ∃ tx bits rx, take (fun _ => ⟨0x55, none⟩) 12 (txInit 9 .even 1) = some (tx, bits) ∧
      feed (rxInit 9 .even false) (flip bits 9) = some rx ∧ rx.out = [0x155] ∧ rx.parityErrors = 0 := by
  refine ⟨_, _, _, rfl, rfl, by decide +kernel, by decide +kernel⟩

/-- The stop bits must fit in the 16 bit register too: 8 data bits and 9 stop bits send a 0 as
the last stop bit. -/
theorem async_too_many_stop_bits :
    ∃ tx bits, take (fun _ => ⟨0x55, none⟩) 18 (txInit 8 .none 9) = some (tx, bits) ∧
      bits.getLast? = some 0 := ⟨_, _, rfl, by decide +kernel⟩

end Async
