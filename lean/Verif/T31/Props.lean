import Verif.T31.Spec

/-!
# Data passes a class 1 modem
-/

namespace T31

/-! ## Escapes -/

/-- DLE has just been seen. -/
def pend : Bool → List Nat → Bool
  | d, [] => d
  | true, _ :: l => pend false l
  | false, c :: l => pend (c == 0x10) l

theorem text_append (double : Bool) : ∀ (a : List Nat) (d : Bool) (b : List Nat), ended d a = false →
    text double d (a ++ b) = text double d a ++ text double (pend d a) b ∧ ended d (a ++ b) = ended (pend d a) b ∧
      pend d (a ++ b) = pend (pend d a) b := by
  intro a
  induction a with
  | nil => intro d b _; exact ⟨by cases d <;> rfl, by cases d <;> rfl, by cases d <;> rfl⟩
  | cons c a ih =>
    intro d b h
    cases d with
    | true =>
      simp only [ended] at h
      by_cases hc : c = 3
      · rw [if_pos hc] at h; simp at h
      · rw [if_neg hc] at h
        obtain ⟨h1, h2, h3⟩ := ih false b h
        refine ⟨?_, ?_, ?_⟩
        · simp only [List.cons_append, text, if_neg hc, pend]
          split <;> simp [h1]
        · simp only [List.cons_append, ended, if_neg hc, pend]; exact h2
        · simp only [List.cons_append, pend]; exact h3
    | false =>
      simp only [ended] at h
      by_cases hc : c = 0x10
      · rw [if_pos hc] at h
        obtain ⟨h1, h2, h3⟩ := ih true b h
        have hp : (c == 0x10) = true := by simp [hc]
        refine ⟨?_, ?_, ?_⟩
        · simp only [List.cons_append, text, if_pos hc, pend, hp]; exact h1
        · simp only [List.cons_append, ended, if_pos hc, pend, hp]; exact h2
        · simp only [List.cons_append, pend, hp]; exact h3
      · rw [if_neg hc] at h
        obtain ⟨h1, h2, h3⟩ := ih false b h
        have hp : (c == 0x10) = false := by simp [hc]
        refine ⟨?_, ?_, ?_⟩
        · simp only [List.cons_append, text, if_neg hc, pend, hp, h1]
        · simp only [List.cons_append, ended, if_neg hc, pend, hp]; exact h2
        · simp only [List.cons_append, pend, hp]; exact h3

/-- Escapes can be undone: a computer gets the data, and knows its end, from what it is told. -/
theorem stuff_text (double : Bool) (data : List Nat) : text double false (stuff data) = data ∧ ended false (stuff data) = true := by
  unfold stuff
  induction data with
  | nil => exact ⟨rfl, rfl⟩
  | cons c l ih =>
    rw [List.flatMap_cons, List.append_assoc]
    by_cases hc : c = 0x10
    · subst hc
      simp only [if_true]
      refine ⟨?_, ?_⟩
      · simp [text, ih.1]
      · simp [ended, ih.2]
    · rw [if_neg hc]
      refine ⟨?_, ?_⟩
      · simp [text, hc, ih.1]
      · simp [ended, hc, ih.2]

/-! ## To the line -/

theorem write_ok (s : Tx) (c : Nat) (h : s.buf.length < 4096) : s.write c = some { s with buf := s.buf ++ [c] } := if_pos h

theorem unstuff_ok : ∀ (l : List Nat) (s : Tx), s.buf.length + l.length + (if s.double && s.dled then 1 else 0) ≤ 4095 →
    ∃ s', s.unstuff l = some s' ∧ s'.buf = s.buf ++ text s.double s.dled l ∧ s'.out = s.out ∧ s'.started = s.started ∧
      s'.double = s.double ∧ (ended s.dled l = false → s'.dled = pend s.dled l ∧ s'.final = s.final) ∧
      (ended s.dled l = true → s'.final = true) ∧ s'.buf.length ≤ 4095 := by
  intro l
  induction l with
  | nil =>
    intro s h
    refine ⟨s.tide, rfl, ?_⟩
    have e : text s.double s.dled [] = [] := by cases s.dled <;> rfl
    have e2 : pend s.dled [] = s.dled := by cases s.dled <;> rfl
    have e3 : ended s.dled [] = false := by cases s.dled <;> rfl
    rw [e, e2, e3, List.append_nil]
    unfold Tx.tide
    simp only [List.length_nil] at h
    split
    · exact ⟨rfl, rfl, rfl, rfl, fun _ => ⟨rfl, rfl⟩, fun h => by simp at h, by simp only; omega⟩
    · exact ⟨rfl, rfl, rfl, rfl, fun _ => ⟨rfl, rfl⟩, fun h => by simp at h, by omega⟩
  | cons c l ih =>
    intro s h
    rw [List.length_cons] at h
    have go : ∀ (s1 : Tx) (t : List Nat), s.octet c = some s1 → s1.buf = s.buf ++ t → s1.out = s.out → s1.started = s.started →
        s1.double = s.double → s1.final = s.final →
        s1.buf.length + l.length + (if s1.double && s1.dled then 1 else 0) ≤ 4095 → ¬ (s.dled = true ∧ c = 3) →
        text s.double s.dled (c :: l) = t ++ text s.double s1.dled l → ended s.dled (c :: l) = ended s1.dled l →
        pend s.dled (c :: l) = pend s1.dled l →
        ∃ s', s.unstuff (c :: l) = some s' ∧ s'.buf = s.buf ++ text s.double s.dled (c :: l) ∧ s'.out = s.out ∧
          s'.started = s.started ∧ s'.double = s.double ∧
          (ended s.dled (c :: l) = false → s'.dled = pend s.dled (c :: l) ∧ s'.final = s.final) ∧
          (ended s.dled (c :: l) = true → s'.final = true) ∧ s'.buf.length ≤ 4095 := by
      intro s1 t h1 h2 h3 h4 h5 h6 h7 h8 h9 h10 h11
      rw [Tx.unstuff, if_neg h8, h1, Option.bind_some, h9, h10, h11]
      by_cases hf : s1.buf.length > 4094
      · rw [if_pos hf]
        have hl : l = [] := List.length_eq_zero_iff.mp (by omega)
        subst hl
        refine ⟨s1, rfl, ?_, h3, h4, h5, ?_, ?_, by omega⟩
        · rw [h2]; cases s1.dled <;> simp [text]
        · intro _; exact ⟨by cases s1.dled <;> rfl, h6⟩
        · intro he; cases s1.dled <;> simp [ended] at he
      · rw [if_neg hf]
        obtain ⟨s', k1, k2, k3, k4, k5, k6, k7, k8⟩ := ih s1 h7
        refine ⟨s', k1, ?_, by rw [k3, h3], by rw [k4, h4], by rw [k5, h5], ?_, k7, k8⟩
        · rw [k2, h2, h5, List.append_assoc]
        · intro he; rw [← h6]; exact k6 he
    by_cases hd : s.dled = true
    · by_cases hc : c = 3
      · refine ⟨{ s with dled := false, final := true }, ?_, ?_, rfl, rfl, rfl, ?_, fun _ => rfl, by simp only; omega⟩
        · rw [Tx.unstuff, if_pos ⟨hd, hc⟩]
        · rw [hd]; simp [text, hc]
        · intro he; rw [hd] at he; simp [ended, hc] at he
      · by_cases hs : (s.double && c == 0x1A) = true
        · have hdb : s.double = true := by simp at hs; exact hs.1
          rw [hdb, hd] at h
          simp only [Bool.and_self, if_true] at h
          refine go { s with dled := false, buf := s.buf ++ [0x10] ++ [0x10] } [0x10, 0x10] ?_ (by simp) rfl rfl rfl rfl
            ?_ (fun h => hc h.2) ?_ ?_ ?_
          · unfold Tx.octet
            rw [if_pos hd, if_pos hs, write_ok _ _ (by simp only; omega), Option.bind_some,
              write_ok _ _ (by simp only [List.length_append, List.length_singleton]; omega)]
          · simp; omega
          · rw [hd]; simp only [text, if_neg hc, if_pos hs]; rfl
          · rw [hd]; simp only [ended, if_neg hc]
          · rw [hd]; rfl
        · refine go { s with dled := false, buf := s.buf ++ [c] } [c] ?_ rfl rfl rfl rfl rfl ?_ (fun h => hc h.2) ?_ ?_ ?_
          · unfold Tx.octet
            rw [if_pos hd, if_neg hs, write_ok _ _ (by simp only; omega)]
          · simp; omega
          · rw [hd]; simp only [text, if_neg hc]; rw [if_neg hs]; rfl
          · rw [hd]; simp only [ended, if_neg hc]
          · rw [hd]; rfl
    · have hd' : s.dled = false := by simpa using hd
      rw [hd'] at h
      simp only [Bool.and_false, Bool.false_eq_true, if_false] at h
      by_cases hc : c = 0x10
      · refine go { s with dled := true } [] ?_ (by simp) rfl rfl rfl rfl ?_ (fun h => hd h.1) ?_ ?_ ?_
        · unfold Tx.octet
          rw [if_neg hd, if_pos hc]
        · simp only [Bool.and_true]; split <;> omega
        · rw [hd']; simp only [text, if_pos hc]; rfl
        · rw [hd']; simp only [ended, if_pos hc]
        · rw [hd']; simp only [pend]; rw [show (c == 0x10) = true by simp [hc]]
      · refine go { s with buf := s.buf ++ [c] } [c] ?_ rfl rfl rfl rfl rfl ?_ (fun h => hd h.1) ?_ ?_ ?_
        · unfold Tx.octet
          rw [if_neg hd, if_neg hc, write_ok _ _ (by omega)]
        · simp [hd']; omega
        · rw [hd']; simp only [text, if_neg hc]; rfl
        · rw [hd']; simp only [ended, if_neg hc]
        · rw [hd']; simp only [pend]; rw [show (c == 0x10) = false by simp [hc]]

structure Sound (double : Bool) (r : Run) : Prop where
  data : text double false r.given = dataOf r.got ++ r.s.buf.drop r.s.out
  out : r.s.out ≤ r.s.buf.length
  len : r.s.buf.length ≤ 4095
  dbl : r.s.double = double
  dled : ended false r.given = false → r.s.dled = pend false r.given
  final : r.s.final = true → ended false r.given = true
  over : ended false r.given = true → r.s.final = true ∨ .endOfData ∈ r.got
  begun : r.s.started = true ↔ dataOf r.got ≠ []

theorem sound_get (double : Bool) (r : Run) (h : Sound double r) :
    Sound double { r with s := r.s.get.1, got := r.got ++ [r.s.get.2] } := by
  obtain ⟨h1, h2, h3, h4, h5, h6, h7, h8⟩ := h
  by_cases ho : r.s.out ≠ r.s.buf.length
  · have hlt : r.s.out < r.s.buf.length := by omega
    have hdrop : r.s.buf.drop r.s.out = r.s.buf.getD r.s.out 0 :: r.s.buf.drop (r.s.out + 1) := by
      rw [List.drop_eq_getElem_cons hlt]; simp [List.getD, hlt]
    have hget : ∃ h c, r.s.get = ({ r.s with out := r.s.out + 1, started := true, holding := h, cts := c }, .data (r.s.buf.getD r.s.out 0)) := by
      unfold Tx.get
      rw [if_pos ho]
      simp only
      rw [if_neg (by omega : ¬ r.s.out + 1 > 4095)]
      split
      · exact ⟨_, _, rfl⟩
      · exact ⟨_, _, rfl⟩
    obtain ⟨hh, cc, hg⟩ := hget
    rw [hg]
    have hda : dataOf (r.got ++ [.data (r.s.buf.getD r.s.out 0)]) = dataOf r.got ++ [r.s.buf.getD r.s.out 0] := by
      simp [dataOf, List.filterMap_append]
    refine ⟨?_, by simp only; omega, h3, h4, h5, h6, ?_, ?_⟩
    · simp only; rw [hda, h1, hdrop, List.append_assoc]; rfl
    · intro he; exact (h7 he).imp id (fun h => List.mem_append_left _ h)
    · simp only; rw [hda]; simp
  · have hd : ∀ o : Out, (∀ b, o ≠ .data b) → dataOf (r.got ++ [o]) = dataOf r.got := by
      intro o ho
      cases o with
      | data b => exact absurd rfl (ho b)
      | fill b => simp [dataOf, List.filterMap_append]
      | endOfData => simp [dataOf, List.filterMap_append]
    unfold Tx.get
    rw [if_neg ho]
    by_cases hf : r.s.final = true
    · rw [if_pos hf]
      simp only
      refine ⟨?_, h2, h3, h4, h5, fun h => by simp at h, fun _ => Or.inr (by simp), ?_⟩
      · simp only; rw [hd _ (by simp)]; exact h1
      · simp only; rw [hd _ (by simp)]; exact h8
    · rw [if_neg hf]
      simp only
      refine ⟨?_, h2, h3, h4, h5, h6, ?_, ?_⟩
      · simp only; rw [hd _ (by simp)]; exact h1
      · intro he; exact (h7 he).imp id (fun h => List.mem_append_left _ h)
      · simp only; rw [hd _ (by simp)]; exact h8

theorem sound_put (double : Bool) (r : Run) (h : Sound double r) (x : List Nat)
    (hx : (x.length : Int) + (if r.s.double then 1 else 0) ≤ r.s.free) (he : ended false r.given = false) :
    ∃ r', r.op (.put x) = some r' ∧ Sound double r' := by
  obtain ⟨h1, h2, h3, h4, h5, h6, h7, h8⟩ := h
  have hlen : (r.s.buf.drop r.s.out).length + x.length + (if r.s.double && r.s.dled then 1 else 0) ≤ 4095 := by
    unfold Tx.free at hx
    rw [List.length_drop]
    cases hdd : r.s.double <;> cases hd2 : r.s.dled <;> simp [hdd] at hx ⊢ <;> omega
  obtain ⟨s', k1, k2, k3, k4, k5, k6, k7, k8⟩ := unstuff_ok x { r.s with buf := r.s.buf.drop r.s.out, out := 0 } hlen
  simp only at k2 k3 k4 k5 k6 k7
  refine ⟨⟨s', r.given ++ x, r.got⟩, ?_, ?_⟩
  · show (({ r.s with buf := r.s.buf.drop r.s.out, out := 0 } : Tx).unstuff x).map _ = _
    rw [k1]; rfl
  · obtain ⟨t1, t2, t3⟩ := text_append double r.given false x he
    have hfin : r.s.final = false := by
      cases hf : r.s.final with
      | false => rfl
      | true => rw [h6 hf] at he; simp at he
    rw [h5 he] at k2 k6 k7
    rw [h4] at k2
    refine ⟨?_, by simp only; omega, k8, by simp only; rw [k5, h4], ?_, ?_, ?_, ?_⟩
    · simp only; rw [t1, h1, k3, k2, List.drop_zero, List.append_assoc]
    · simp only; intro h; rw [t2] at h; rw [t3]; exact (k6 h).1
    · simp only
      intro h
      rw [t2]
      cases hx : ended (pend false r.given) x with
      | true => rfl
      | false => rw [(k6 hx).2, hfin] at h; simp at h
    · simp only; intro h; rw [t2] at h; exact Or.inl (k7 h)
    · simp only; rw [k4]; exact h8

theorem sound_ops (double : Bool) : ∀ (l : List Op) (r : Run), Sound double r → r.Fair l → ∃ r', r.ops l = some r' ∧ Sound double r' := by
  intro l
  induction l with
  | nil => intro r h _; exact ⟨r, rfl, h⟩
  | cons o l ih =>
    intro r h hf
    cases o with
    | put x =>
      obtain ⟨r1, k1, k2⟩ := sound_put double r h x hf.1.1 hf.1.2
      obtain ⟨r2, k3, k4⟩ := ih r1 k2 (hf.2 r1 k1)
      exact ⟨r2, by rw [Run.ops, k1]; exact k3, k4⟩
    | get =>
      obtain ⟨r2, k3, k4⟩ := ih _ (sound_get double r h) (hf.2 _ rfl)
      exact ⟨r2, by rw [Run.ops]; exact k3, k4⟩

/-- C101: if the computer keeps to the room it is told, and gives no more after DLE ETX, then nothing is written beyond
the buffer, and the line gets the data, in order and complete.  When there is none at hand, the line is filled, with ones
before the data and with zeros within it.  The end is told to the modem after all data and only then.  Missing: the last
octet of the room with double escapes (`last_lost`). -/
theorem data_goes_out_partial (double : Bool) (l : List Op) (h : Run.Fair ⟨Tx.init double, [], []⟩ l) :
    ∃ r rest, Run.ops ⟨Tx.init double, [], []⟩ l = some r ∧ text double false r.given = dataOf r.got ++ rest ∧
      (∀ b, r.s.get.2 = .data b ↔ rest.head? = some b) ∧
      (∀ b, r.s.get.2 = .fill b → b = if dataOf r.got = [] then 0xFF else 0x00) ∧
      (r.s.get.2 = .endOfData → ended false r.given = true) ∧
      (ended false r.given = true → rest = [] → r.s.get.2 = .endOfData ∨ .endOfData ∈ r.got) := by
  obtain ⟨r, k1, k2⟩ := sound_ops double l _ ⟨by simp [Tx.init, text, dataOf], by simp [Tx.init], by simp [Tx.init], rfl,
    fun _ => rfl, fun h => by simp [Tx.init] at h, fun h => by simp [ended] at h, by simp [Tx.init, dataOf]⟩ h
  obtain ⟨h1, h2, h3, h4, h5, h6, h7, h8⟩ := k2
  refine ⟨r, _, k1, h1, ?_⟩
  by_cases ho : r.s.out ≠ r.s.buf.length
  · have hlt : r.s.out < r.s.buf.length := by omega
    have hdrop : r.s.buf.drop r.s.out = r.s.buf.getD r.s.out 0 :: r.s.buf.drop (r.s.out + 1) := by
      rw [List.drop_eq_getElem_cons hlt]; simp [List.getD, hlt]
    have hget : r.s.get.2 = .data (r.s.buf.getD r.s.out 0) := by
      unfold Tx.get
      rw [if_pos ho]
      simp only
      split <;> split <;> rfl
    rw [hget, hdrop]
    refine ⟨fun b => by simp, fun b h => by simp at h, fun h => by simp at h, fun _ h => by simp at h⟩
  · have hn : r.s.buf.drop r.s.out = [] := List.drop_eq_nil_of_le (by omega)
    rw [hn]
    unfold Tx.get
    rw [if_neg ho]
    by_cases hf : r.s.final = true
    · rw [if_pos hf]
      exact ⟨fun b => by simp, fun b h => by simp at h, fun _ => h6 hf, fun _ _ => Or.inl rfl⟩
    · rw [if_neg hf]
      refine ⟨fun b => by simp, fun b h => ?_, fun h => by simp at h, fun he _ => Or.inr ((h7 he).resolve_left hf)⟩
      simp only [Out.fill.injEq] at h
      rw [← h]
      by_cases hs : r.s.started = true
      · rw [if_pos hs, if_neg (h8.mp hs)]
      · rw [if_neg hs, if_pos (Decidable.byContradiction fun hx => hs (h8.mpr hx))]

example : (Run.ops ⟨Tx.init false, [], []⟩ [.get, .put [1, 0x10], .get, .get, .put [0x10, 2, 0x10], .put [3], .get, .get, .get]).map
    (fun r => r.got) = some [.fill 0xFF, .data 1, .fill 0, .data 0x10, .data 2, .endOfData] := by decide +kernel

example : Run.Fair ⟨Tx.init true, [], []⟩ [.get, .put [1, 0x10], .get, .put [0x1A]] := by
  refine ⟨trivial, fun r1 h1 => ⟨?_, fun r2 h2 => ⟨trivial, fun r3 h3 => ⟨?_, fun _ _ => trivial⟩⟩⟩⟩
  · cases h1; decide
  · cases h1; cases h2; cases h3; decide

/-! ## From the line -/

theorem rx_write (s : Rx) (c : Nat) (h : s.data.length < 256) : s.write c = some { s with data := s.data ++ [c] } := if_pos h

def esc (c : Nat) : List Nat := if c = 0x10 then [0x10, 0x10] else [c]

theorem stuffed_ok (s : Rx) (c : Nat) : s.stuffed c =
    if s.data.length + (esc c).length ≤ 256 then some { s with data := s.data ++ esc c } else none := by
  unfold Rx.stuffed esc Rx.write
  by_cases hc : c = 0x10
  · subst hc
    simp only [if_true, List.length_cons, List.length_nil]
    by_cases h : s.data.length < 256
    · rw [if_pos h, Option.bind_some]
      simp only [List.length_append, List.length_singleton, List.append_assoc]
      by_cases h2 : s.data.length + 1 < 256
      · rw [if_pos h2, if_pos (by omega)]; rfl
      · rw [if_neg h2, if_neg (by omega)]
    · rw [if_neg h, if_neg (by omega)]; rfl
  · simp only [if_neg hc, List.length_singleton]
    by_cases h : s.data.length < 256
    · rw [if_pos h, if_pos (by omega)]
    · rw [if_neg h, if_neg (by omega)]

theorem esc_length (c : Nat) : 1 ≤ (esc c).length ∧ (esc c).length ≤ 2 := by
  unfold esc; split <;> simp

theorem stuff_cons (c : Nat) (l : List Nat) : stuff (c :: l) = esc c ++ stuff l := by
  unfold stuff
  rw [List.flatMap_cons, List.append_assoc]; rfl

theorem close_ok (s : Rx) : s.close = if s.data.length + 2 ≤ 256 then
    some { s with data := [], told := s.told ++ (s.data ++ [0x10, 3]) } else none := by
  unfold Rx.close Rx.write
  by_cases h : s.data.length < 256
  · rw [if_pos h, Option.bind_some]
    simp only [List.length_append, List.length_singleton, List.append_assoc]
    by_cases h2 : s.data.length + 1 < 256
    · rw [if_pos h2, if_pos (by omega)]; rfl
    · rw [if_neg h2, if_neg (by omega)]; rfl
  · rw [if_neg h, if_neg (by omega)]; rfl

theorem short_ok : ∀ (l : List Bool) (s : Rx), s.bitNo + l.length < 8 → s.data.length ≤ 249 →
    (s.page l).map (fun r => r.told) = some (s.told ++ (s.data ++ [0x10, 3])) := by
  intro l
  induction l with
  | nil =>
    intro s _ h
    rw [Rx.page, close_ok, if_pos (by omega)]; rfl
  | cons b l ih =>
    intro s h1 h2
    rw [List.length_cons] at h1
    rw [Rx.page]
    unfold Rx.bit
    simp only
    rw [if_neg (by omega), Option.bind_some]
    exact ih _ (by simp only; omega) h2

theorem page_ok : ∀ (l : List Bool) (s : Rx), s.bitNo = 0 → s.cur < 256 → s.data.length ≤ 249 →
    (s.page l).map (fun r => r.told) = some (s.told ++ (s.data ++ stuff (octets l)))
  | a :: b :: c :: d :: e :: f :: g :: h :: l, s, h1, h2, h3 => by
    have hb : ∀ x : Bool, (if x then 128 else 0) = 128*x.toNat := by intro x; cases x <;> rfl
    have hx : ∀ x : Bool, x.toNat ≤ 1 := by intro x; cases x <;> decide
    have ha := hx a; have hb' := hx b; have hc := hx c; have hd := hx d
    have he := hx e; have hf := hx f; have hg := hx g; have hh := hx h
    have hv : (((((((s.cur/2 + 128*a.toNat)/2 + 128*b.toNat)/2 + 128*c.toNat)/2 + 128*d.toNat)/2 + 128*e.toNat)/2 +
        128*f.toNat)/2 + 128*g.toNat)/2 + 128*h.toNat =
        a.toNat + 2*b.toNat + 4*c.toNat + 8*d.toNat + 16*e.toNat + 32*f.toNat + 64*g.toNat + 128*h.toNat := by omega
    rw [octets, stuff_cons]
    generalize hval : a.toNat + 2*b.toNat + 4*c.toNat + 8*d.toNat + 16*e.toNat + 32*f.toNat + 64*g.toNat + 128*h.toNat = v at *
    obtain ⟨e1, e2⟩ := esc_length v
    simp only [Rx.page, Rx.bit, h1, hb, Nat.zero_add, Option.bind_some, Nat.reduceAdd, Nat.reduceLeDiff, ge_iff_le, if_false, if_true]
    rw [hv, stuffed_ok]
    simp only
    rw [if_pos (by omega), Option.map_some, Option.bind_some]
    simp only
    by_cases hl : 250 ≤ (s.data ++ esc v).length
    · rw [if_pos hl, page_ok l _ rfl (by simp) (by simp [Rx.tell])]
      simp [Rx.tell, List.append_assoc]
    · rw [if_neg hl, page_ok l _ rfl (by simp) (by simp only; omega)]
      simp [List.append_assoc]
  | [], s, h1, _, h3 => by rw [short_ok [] s (by simp [h1]) h3]; rfl
  | [_], s, h1, _, h3 => by rw [short_ok _ s (by simp [h1]) h3]; rfl
  | [_, _], s, h1, _, h3 => by rw [short_ok _ s (by simp [h1]) h3]; rfl
  | [_, _, _], s, h1, _, h3 => by rw [short_ok _ s (by simp [h1]) h3]; rfl
  | [_, _, _, _], s, h1, _, h3 => by rw [short_ok _ s (by simp [h1]) h3]; rfl
  | [_, _, _, _, _], s, h1, _, h3 => by rw [short_ok _ s (by simp [h1]) h3]; rfl
  | [_, _, _, _, _, _], s, h1, _, h3 => by rw [short_ok _ s (by simp [h1]) h3]; rfl
  | [_, _, _, _, _, _, _], s, h1, _, h3 => by rw [short_ok _ s (by simp [h1]) h3]; rfl

/-- C102: whatever bits a fast modem gets, the computer is told their octets with escapes, and the end, and nothing is
written beyond the buffer. -/
theorem page_told (bits : List Bool) : (Rx.init.page bits).map (fun r => r.told) = some (stuff (octets bits)) := by
  rw [page_ok bits Rx.init rfl (by decide) (by decide)]; rfl

example : (Rx.init.page [false, false, false, false, true, false, false, false, true, true, false, false, false, false, false, false, true]).map
    (fun r => r.told) = some [0x10, 0x10, 3, 0x10, 3] := by decide +kernel

theorem frame_ok : ∀ (l : List Nat) (s : Rx), s.frame l = if s.data.length + (stuff l).length ≤ 256 then
    some { s with data := [], told := s.told ++ (s.data ++ stuff l) } else none := by
  intro l
  induction l with
  | nil => intro s; rw [Rx.frame, close_ok]; rfl
  | cons c l ih =>
    intro s
    rw [Rx.frame, stuffed_ok, stuff_cons, List.length_append]
    by_cases h : s.data.length + (esc c).length ≤ 256
    · rw [if_pos h, Option.bind_some, ih]
      simp only [List.length_append, List.append_assoc, Nat.add_assoc]
    · rw [if_neg h, if_neg (by omega)]; rfl

/-- C103: the computer is told a frame with escapes, and its end, if this makes no more than 256 octets.  Missing: longer
frames (`long_frame_overflows`). -/
theorem frame_told_partial (msg : List Nat) (h : (stuff msg).length ≤ 256) :
    (Rx.init.frame msg).map (fun r => r.told) = some (stuff msg) := by
  rw [frame_ok, if_pos (by simpa [Rx.init] using h)]; rfl

example : (stuff [0xFF, 0x13, 0x10, 3]).length ≤ 256 ∧ (Rx.init.frame [0xFF, 0x13, 0x10, 3]).map (fun r => r.told) =
    some [0xFF, 0x13, 0x10, 0x10, 3, 0x10, 3] := by decide +kernel

/-! ## Frames to the line -/

theorem put_append : ∀ (a : List Nat) (s : Frames) (b : List Nat), s.put (a ++ b) = (s.put a).bind fun s => s.put b := by
  intro a
  induction a with
  | nil => intro s b; rfl
  | cons c a ih =>
    intro s b
    rw [List.cons_append, Frames.put, Frames.put]
    cases s.octet c with
    | none => rfl
    | some s => exact ih s b

theorem stuff_sent : ∀ (l : List Nat) (s : Frames), s.dled = false → s.buf.length + l.length ≤ 284 →
    s.put (stuff l) = some { s with buf := [], sent := s.sent ++ [s.buf ++ l] } := by
  intro l
  induction l with
  | nil =>
    intro s h _
    obtain ⟨buf, dled, dbl, sent⟩ := s
    simp only at h
    subst h
    simp [stuff, Frames.put, Frames.octet]
  | cons c l ih =>
    intro s h hl
    rw [List.length_cons] at hl
    obtain ⟨buf, dled, dbl, sent⟩ := s
    simp only at h hl
    subst h
    have e : (⟨buf, false, dbl, sent⟩ : Frames).put (esc c) = some ⟨buf ++ [c], false, dbl, sent⟩ := by
      unfold esc
      by_cases hc : c = 0x10
      · subst hc
        have : buf.length < 284 := by omega
        simp [Frames.put, Frames.octet, Frames.write, this]
      · have : buf.length < 284 := by omega
        simp [hc, Frames.put, Frames.octet, Frames.write, this]
    rw [stuff_cons, put_append, e, Option.bind_some, ih _ rfl (by simp only [List.length_append, List.length_singleton]; omega)]
    simp

/-- Some calls, one after the other. -/
def Frames.calls (s : Frames) (l : List (List Nat)) : Option Frames := l.foldlM Frames.put s

theorem calls_flatten : ∀ (l : List (List Nat)) (s : Frames), s.calls l = s.put l.flatten := by
  intro l
  induction l with
  | nil => intro s; rfl
  | cons a l ih =>
    intro s
    unfold Frames.calls
    rw [List.foldlM_cons, List.flatten_cons, put_append]
    cases s.put a with
    | none => rfl
    | some s => exact ih s

theorem frames_sent : ∀ (msgs : List (List Nat)) (s : Frames), s.dled = false → s.buf = [] → (∀ m ∈ msgs, m.length ≤ 284) →
    s.put (msgs.flatMap stuff) = some { s with sent := s.sent ++ msgs } := by
  intro msgs
  induction msgs with
  | nil => intro s _ _ _; simp [Frames.put]
  | cons m l ih =>
    intro s h1 h2 h3
    rw [List.flatMap_cons, put_append, stuff_sent m s h1 (by rw [h2]; simpa using h3 m (List.mem_cons_self ..)), Option.bind_some,
      ih ⟨[], s.dled, s.double, _⟩ h1 rfl (fun x hx => h3 x (List.mem_cons_of_mem _ hx))]
    simp only [h2, List.nil_append, List.append_assoc, List.singleton_append]

/-- C104: frames of up to 284 octets which the computer gives with escapes are sent as they are, however they are divided
into calls.  Missing: longer ones (`Limits`). -/
theorem frames_go_out_partial (double : Bool) (msgs : List (List Nat)) (h : ∀ m ∈ msgs, m.length ≤ 284) (calls : List (List Nat))
    (hc : calls.flatten = msgs.flatMap stuff) :
    (Frames.calls ⟨[], false, double, []⟩ calls).map (fun r => r.sent) = some msgs := by
  rw [calls_flatten, hc, frames_sent msgs _ rfl rfl h]; rfl

example : (Frames.calls ⟨[], false, false, []⟩ [[0xFF, 0x10], [0x10, 0x10], [3, 7, 0x10, 3]]).map (fun r => r.sent) =
    some [[0xFF, 0x10], [7]] := by decide +kernel

end T31
