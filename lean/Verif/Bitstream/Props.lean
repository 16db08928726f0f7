import Verif.Bitstream.Lemmas

/-! # C08: bit streams -/

namespace Bitstream
open Spec

theorem putAll_spec (fs : List (BitVec 32 × Nat)) (hw : ∀ f ∈ fs, f.2 ≤ 25) (s : State) (hs : Inv s) :
    ∃ s' o, putAll s fs = some (s', o) ∧ Inv s' ∧ s'.lsbFirst = s.lsbFirst ∧
      octetsBits s.lsbFirst o ++ pend s' = pend s ++ fieldsBits s.lsbFirst fs := by
  induction fs generalizing s with
  | nil => exact ⟨s, [], rfl, hs, rfl, by simp [octetsBits, fieldsBits]⟩
  | cons f fs ih =>
    obtain ⟨s1, o1, e1, i1, l1, h1⟩ := put_spec s f.1 f.2 hs (hw f (by simp))
    obtain ⟨s2, o2, e2, i2, l2, h2⟩ := ih (fun g hg => hw g (by simp [hg])) s1 i1
    refine ⟨s2, o1 ++ o2, by simp [putAll, e1, e2], i2, by rw [l2, l1], ?_⟩
    rw [l1] at h2
    have : octetsBits s.lsbFirst (o1 ++ o2) = octetsBits s.lsbFirst o1 ++ octetsBits s.lsbFirst o2 := by
      simp [octetsBits]
    rw [this, List.append_assoc, h2, ← List.append_assoc, h1, List.append_assoc]
    rfl

/-- Writing fields of the documented widths produces exactly their bits, in stream order, padded
with zeros to a whole octet. -/
theorem bitstream_write_is_concatenation (l : Bool) (fs : List (BitVec 32 × Nat))
    (hw : ∀ f ∈ fs, f.2 ≤ 25) :
    ∃ o k, write l fs = some o ∧ k < 8 ∧
      octetsBits l o = fieldsBits l fs ++ List.replicate k false := by
  obtain ⟨hi, hp⟩ := init_inv l
  obtain ⟨s, o, e, i, hl, h⟩ := putAll_spec fs hw (init l) hi
  obtain ⟨s', o', k, e', hk, _, h'⟩ := flush_spec s i
  have hl' : s.lsbFirst = l := hl
  rw [hl'] at h'
  refine ⟨o ++ o', k, by simp [write, e, e'], hk, ?_⟩
  rw [hp] at h
  have : octetsBits l (o ++ o') = octetsBits l o ++ octetsBits l o' := by simp [octetsBits]
  rw [this, h', ← List.append_assoc]
  congr 1

theorem octetsBits_length (l : Bool) (c : List (BitVec 8)) : (octetsBits l c).length = 8 * c.length := by
  induction c with
  | nil => rfl
  | cons b c ih =>
    rw [octetsBits_cons, List.length_append, ih, List.length_cons]
    have : (fieldBits l b 8).length = 8 := by cases l <;> simp [fieldBits]
    omega

theorem fieldBits_length {n : Nat} (l : Bool) (x : BitVec n) (w : Nat) : (fieldBits l x w).length = w := by
  cases l <;> simp [fieldBits]

theorem fieldBits_inj (l : Bool) (x y : BitVec 32) (w : Nat) (h : fieldBits l x w = fieldBits l y w) :
    ∀ i, i < w → x.getLsbD i = y.getLsbD i := by
  cases l with
  | true => exact lo_inj x y w h
  | false =>
    rw [fieldBits_false, fieldBits_false] at h
    exact lo_inj x y w (List.reverse_inj.mp h)

theorem getAll_spec (fs : List (BitVec 32 × Nat)) (hw : ∀ f ∈ fs, f.2 ≤ 25) (s : State) (hs : Inv s)
    (c : List (BitVec 8)) (tail : List Bool)
    (hc : pend s ++ octetsBits s.lsbFirst c = fieldsBits s.lsbFirst fs ++ tail) :
    ∃ vs c', getAll s c (fs.map (·.2)) = some (vs, c') ∧
      vs = fs.map (fun f => BitVec.ofNat 32 (f.1.toNat % 2 ^ f.2)) ∧ 8 * c'.length ≤ tail.length ∧
      tail.length < 8 * c'.length + 8 := by
  induction fs generalizing s c with
  | nil =>
    refine ⟨[], c, rfl, rfl, ?_⟩
    have := congrArg List.length hc
    simp only [List.length_append, octetsBits_length, pend, fieldBits_length, fieldsBits, List.flatMap_nil,
      List.length_nil] at this
    have := hs.1
    omega
  | cons f fs ih =>
    have hf : fieldsBits s.lsbFirst (f :: fs) = fieldBits s.lsbFirst f.1 f.2 ++ fieldsBits s.lsbFirst fs := rfl
    have hlen : f.2 ≤ s.residue + 8 * c.length := by
      have := congrArg List.length hc
      rw [hf] at this
      simp only [List.length_append, octetsBits_length, pend, fieldBits_length] at this
      omega
    obtain ⟨v, s', c', e, i', l', h1, h2⟩ := get_spec s c f.2 hs (hw f (by simp)) hlen
    rw [hc, hf, List.append_assoc] at h1
    have h3 := List.append_inj h1 (by rw [fieldBits_length, fieldBits_length])
    obtain ⟨vs, c'', e2, h4, h5⟩ := ih (fun g hg => hw g (by simp [hg])) s' i' c' (by rw [l']; exact h3.2)
    refine ⟨v :: vs, c'', by simp [getAll, e, e2], ?_, h5⟩
    rw [List.map_cons, h4]
    congr 1
    apply BitVec.eq_of_getLsbD_eq
    intro i hi
    rw [BitVec.getLsbD_ofNat, Nat.testBit_mod_two_pow]
    by_cases hiw : i < f.2
    · rw [fieldBits_inj _ _ _ _ h3.1 i hiw]
      simp [hi, hiw, BitVec.getLsbD]
    · rw [h2 i (by omega)]
      simp [hiw]

/-- Reading back the widths that were written gives the values that were written (their low
bits), from the written octets followed by anything, and leaves exactly what follows. -/
theorem bitstream_round_trip (l : Bool) (fs : List (BitVec 32 × Nat)) (hw : ∀ f ∈ fs, f.2 ≤ 25)
    (rest : List (BitVec 8)) :
    ∃ o c', write l fs = some o ∧
      read l (o ++ rest) (fs.map (·.2)) = some (fs.map (fun f => BitVec.ofNat 32 (f.1.toNat % 2 ^ f.2)), c') ∧
      c'.length = rest.length := by
  obtain ⟨o, k, e, hk, h⟩ := bitstream_write_is_concatenation l fs hw
  obtain ⟨hi, hp⟩ := init_inv l
  obtain ⟨vs, c', e2, h2, h3, h4⟩ := getAll_spec fs hw (init l) hi (o ++ rest)
    (List.replicate k false ++ octetsBits l rest) (by
      rw [hp]
      show octetsBits l (o ++ rest) = fieldsBits l fs ++ _
      rw [← List.append_assoc, ← h]
      simp [octetsBits])
  refine ⟨o, c', e, by rw [← h2]; exact e2, ?_⟩
  simp only [List.length_append, List.length_replicate, octetsBits_length] at h3 h4
  omega

/-- Reading any widths from any octets which are long enough is defined, and the values are the
bits of the octets in stream order. -/
theorem bitstream_read_is_bits (l : Bool) (c : List (BitVec 8)) (ws : List Nat) (hw : ∀ w ∈ ws, w ≤ 25)
    (hc : ws.sum ≤ 8 * c.length) :
    ∃ vs c', read l c ws = some (vs, c') ∧ vs.length = ws.length ∧
      fieldsBits l (vs.zip ws) = (octetsBits l c).take ws.sum := by
  suffices H : ∀ (ws : List Nat) (s : State) (c : List (BitVec 8)), Inv s → (∀ w ∈ ws, w ≤ 25) →
      ws.sum ≤ s.residue + 8 * c.length →
      ∃ vs c', getAll s c ws = some (vs, c') ∧ vs.length = ws.length ∧
        fieldsBits s.lsbFirst (vs.zip ws) = (pend s ++ octetsBits s.lsbFirst c).take ws.sum by
    obtain ⟨hi, hp⟩ := init_inv l
    have := H ws (init l) c hi hw (by simpa [init] using hc)
    rw [hp] at this
    exact this
  intro ws
  induction ws with
  | nil => intro s c _ _ _; exact ⟨[], c, rfl, rfl, by simp [fieldsBits]⟩
  | cons w ws ih =>
    intro s c hs hw hc
    simp only [List.sum_cons] at hc
    obtain ⟨v, s', c', e, i', l', h1, h2⟩ := get_spec s c w hs (hw w (by simp)) (by omega)
    have hlen := congrArg List.length h1
    simp only [List.length_append, octetsBits_length, pend, fieldBits_length] at hlen
    obtain ⟨vs, c'', e2, h3, h4⟩ := ih s' c' i' (fun g hg => hw g (by simp [hg])) (by omega)
    refine ⟨v :: vs, c'', by simp [getAll, e, e2], by simp [h3], ?_⟩
    rw [l'] at h4
    rw [← h1]
    show fieldBits s.lsbFirst v w ++ fieldsBits s.lsbFirst (vs.zip ws) = _
    rw [h4, List.sum_cons]
    have := List.take_length_add_append (l₁ := fieldBits s.lsbFirst v w)
      (l₂ := pend s' ++ octetsBits s.lsbFirst c') (i := ws.sum)
    rw [fieldBits_length] at this
    exact this.symm

/-- The documented limit is sharp: a 26 bit field after 7 bits is silently dropped. -/
theorem bitstream_drops_26_bits :
    ∃ fs : List (BitVec 32 × Nat), (∀ f ∈ fs, f.2 ≤ 26) ∧
      write true fs = some [0x55] ∧ (fieldsBits true fs).length = 33 := by
  refine ⟨[(0x55, 7), (0x2AAAAAA, 26)], by decide, by decide +kernel, by decide⟩

/-- A mixed sequence of fields, in both orders. -/
example : write true [(5, 3), (0x1234567, 25), (1, 1)] = some [0x3D, 0x2B, 0x1A, 0x19] ∧
    write false [(5, 3), (0x1234567, 25), (1, 1)] = some [0xB2, 0x34, 0x56, 0x78] := by decide +kernel

example : read true [0x3D, 0x2B, 0x1A, 0x19, 0x77] [3, 25, 1] = some ([5, 0x1234567, 1], [0x77]) ∧
    read false [0xB2, 0x34, 0x56, 0x78, 0x77] [3, 25, 1] = some ([5, 0x1234567, 1], [0x77]) := by
  decide +kernel

end Bitstream
