import Verif.V42.Steps

/-!
# V.42 (LAP-M): the theorems

`taken` has the data the application gave to a side to send, in order (each call of the application's `get` which returned data), and `delivered` the data a side gave to its application.
-/

namespace V42

/-- C44. From the beginning of a connection, whatever frames are lost and whatever happens on both sides in whatever order (as long as a side which waits for the answer to its SABME does
not give up waiting), each application gets exactly the first so many of the pieces of data which the other one sent: none missing before another, none twice, none changed. At most 15 of them
are on their way, or lost when the connection ends. No octet outside of a frame is used. -/
theorem in_order_partial (l : Link) (h : Start l) (evs : List (Bool × Act)) (hc : Calm l evs) :
    ∃ l', run l evs = some l' ∧ delivered l'.b <+: l'.a.taken ∧ delivered l'.a <+: l'.b.taken ∧ l'.a.taken.length ≤ (delivered l'.b).length + 15 ∧
      l'.b.taken.length ≤ (delivered l'.a).length + 15 := by
  obtain ⟨l', h1, _, A, B, _, h2, h3, _⟩ := inv_run evs (start_inv h) hc
  obtain ⟨a1, a2, a3⟩ := h2.le
  obtain ⟨b1, b2, b3⟩ := h3.le
  refine ⟨l', h1, ?_, ?_, by omega, by omega⟩
  · rw [h2.pre]; exact List.take_prefix _ _
  · rw [h3.pre]; exact List.take_prefix _ _

/-- The calling side sends its XID, gets one, and sends its SABME; the other one has it. -/
def opening : List (Bool × Act) := [(true, .expire none), (false, .receive none), (false, .send none), (true, .receive none), (true, .send none), (false, .receive none)]

/-- Two sides as `v42_init` makes them. -/
def fresh : Link := ⟨init true, init false, [], []⟩

/-- From two sides as `v42_init` makes them to the beginning of a connection. -/
theorem opening_start : ∃ l, run fresh opening = some l ∧ Start l ∧ l.a.state = .establish ∧ l.b.state = .data := by
  refine ⟨_, rfl, ⟨⟨Or.inr rfl, ⟨rfl, rfl, rfl, rfl, rfl, rfl⟩, rfl, rfl, by decide, Or.inl rfl, rfl, rfl⟩, ⟨Or.inl rfl, ⟨rfl, rfl, rfl, rfl, rfl, rfl⟩, rfl, rfl, by decide, Or.inr rfl, rfl, rfl⟩, rfl, rfl⟩,
    rfl, rfl⟩

/-- Data both ways with losses. -/
def traffic : List (Bool × Act) :=
  [(false, .send none), (true, .receive none), (true, .send (some [1])), (true, .send (some [2])), (true, .send (some [3])), (false, .receive (some [])), (false, .lose), (false, .receive (some [])),
    (false, .send none), (false, .send none), (true, .receive (some [])), (true, .receive (some [])), (true, .send none), (true, .send none), (false, .receive (some [9])), (false, .receive (some [])),
    (false, .send none), (true, .lose), (true, .expire none), (true, .send none), (false, .receive none), (false, .send none)]

example : (run fresh (opening ++ traffic)).map (fun l => (delivered l.b, l.a.taken, l.b.taken)) = some ([[1], [2], [3]], [[1], [2], [3]], [[9]]) := by decide +kernel

/-- The condition on the SABME is needed: the answer to the SABME and the first piece of data of the answering side are lost, the SABME is sent again, and the answering side throws its data
away. The application of the calling side gets the second piece without the first. -/
theorem early_data_lost : (run fresh (opening ++ [(false, .send none), (true, .lose), (false, .send (some [7])), (true, .lose), (true, .expire none), (true, .send none), (false, .receive none),
    (false, .send none), (false, .send (some [8])), (true, .receive none), (true, .receive none)])).map (fun l => (delivered l.a, l.b.taken, l.a.state, l.b.state)) =
      some ([[8]], [[7], [8]], .data, .data) := by decide +kernel

/-- Without the loss of any frame the connection can be ended by the sender: a poll is sent between information frames, its answer makes the sender send the later ones again, and the
rejection of the first of these acknowledges more than what was sent since. -/
theorem spurious_disconnect : (run fresh (opening ++ [(false, .send none), (true, .receive none), (true, .send (some [1])), (true, .expire none), (true, .send none), (true, .send (some [2])),
    (true, .send (some [3])), (true, .send (some [4])), (false, .receive (some [])), (false, .send none), (true, .receive (some [])), (true, .send none), (false, .receive (some [])),
    (false, .receive (some [])), (false, .receive (some [])), (false, .receive (some [])), (false, .receive (some [])), (false, .send none), (false, .send none), (false, .send none),
    (false, .send none), (false, .send none), (true, .receive (some [])), (true, .receive (some [])), (true, .receive (some [])), (true, .receive (some [])), (true, .receive (some [])),
    (true, .send none)])).map (fun l => (l.a.state, l.ab)) = some (.release, [[3, 0x53]]) := by decide +kernel

/-! ## A busy side -/

theorem log_ctrl (x : Lapm) (f : Frame) : (ctrlFrame x f).log = x.log := by
  unfold ctrlFrame
  split <;> rfl

theorem busy_ackInfo (x : Lapm) (m : Nat) : (ackInfo x m).localBusy = x.localBusy ∧ (ackInfo x m).log = x.log := by
  have hl : ∀ (k : Nat) (x : Lapm), (ackLoop m k x).2.localBusy = x.localBusy ∧ (ackLoop m k x).2.log = x.log := by
    intro k
    induction k with
    | zero => intro x; exact ⟨rfl, rfl⟩
    | succ k ih =>
      intro x
      rw [ackLoop]
      split
      · exact ih _
      · exact ⟨rfl, rfl⟩
  unfold ackInfo
  split
  · unfold disconnect t401Start txUnnumbered ctrlFrame
    split <;> exact ⟨rfl, rfl⟩
  · simp only
    split
    · split <;> exact hl 16 x
    · exact hl 16 x

/-- C45. A side which said it is busy, on a connection, is given no data by an information frame, and does not count the frame as received: it will be sent again. -/
theorem busy_holds (x : Lapm) (hb : x.localBusy = true) (hs : x.state = .data) (sup : Supply) (addr b c : Nat) (d : List Nat) (hi : b &&& 1 = 0) :
    ∃ x', receive x sup (addr :: b :: c :: d) = some x' ∧ delivered x' = delivered x ∧ x'.vr = x.vr ∧ x'.taken = x.taken := by
  have h1 : b &&& 3 ≠ 3 ∧ b &&& 3 ≠ 1 := by
    have h2 : (b &&& 3) &&& 1 = 0 := by rw [Nat.and_assoc]; exact hi
    constructor <;> intro h <;> rw [h] at h2 <;> cases h2
  have hv : validDataState x = (true, x) := by unfold validDataState; rw [hs]
  rw [receive, if_neg h1.1, if_neg h1.2, receiveInformation]
  simp only [hv]
  rw [if_neg (by simp)]
  split
  · exact ⟨_, rfl, rfl, rfl, rfl⟩
  · have ha := busy_ackInfo x (c >>> 1)
    have hvr : (ackInfo x (c >>> 1)).vr = x.vr ∧ (ackInfo x (c >>> 1)).taken = x.taken := by
      have hl : ∀ (k : Nat) (x : Lapm), (ackLoop (c >>> 1) k x).2.vr = x.vr ∧ (ackLoop (c >>> 1) k x).2.taken = x.taken := by
        intro k
        induction k with
        | zero => intro x; exact ⟨rfl, rfl⟩
        | succ k ih =>
          intro x
          rw [ackLoop]
          split
          · exact ih _
          · exact ⟨rfl, rfl⟩
      unfold ackInfo
      split
      · unfold disconnect t401Start txUnnumbered ctrlFrame
        split <;> exact ⟨rfl, rfl⟩
      · simp only
        split
        · split <;> exact hl 16 x
        · exact hl 16 x
    rw [if_pos (by rw [ha.1]; exact hb)]
    refine ⟨_, rfl, ?_, ?_⟩
    · unfold delivered
      split
      · unfold txSupervisory
        rw [log_ctrl, ha.2]
      · rw [ha.2]
    · split
      · unfold txSupervisory ctrlFrame
        split <;> exact hvr
      · exact hvr

example : ((run fresh (opening ++ [(false, .send none), (true, .receive none), (false, .busy true), (true, .send (some [1])), (false, .receive none), (false, .busy false), (true, .expire none),
    (true, .send none), (false, .receive (some [])), (false, .send none), (true, .receive (some [])), (true, .send none)])).map fun l => (delivered l.b, l.ab)) = some ([], [[3, 0, 0, 1]]) := by
  decide +kernel

/-! ## Negotiation -/

theorem setParam_self (d v : Nat) : setParam d v d = d := by
  unfold setParam
  split
  · rfl
  · split <;> omega

/-- The parameters of a connection. -/
def Defaults (s : Lapm) : Prop := s.txK = 15 ∧ s.rxK = 15 ∧ s.txN401 = 128 ∧ s.rxN401 = 128

theorem xidParam_same {priv : Bool} {s s' : Lapm} {id len : Nat} {buf : List Nat} (hd : Defaults s) (h : xidParam priv s id len buf = some s') : s' = s := by
  obtain ⟨d1, d2, d3, d4⟩ := hd
  unfold xidParam at h
  split at h
  · split at h
    · obtain ⟨_, _, h⟩ := Option.map_eq_some_iff.mp h; exact h.symm
    · exact (Option.some.inj h).symm
  · split at h
    · obtain ⟨v, _, h⟩ := Option.map_eq_some_iff.mp h
      rw [d3, setParam_self, ← d3] at h; exact h.symm
    · split at h
      · obtain ⟨v, _, h⟩ := Option.map_eq_some_iff.mp h
        rw [d4, setParam_self, ← d4] at h; exact h.symm
      · split at h
        · obtain ⟨v, _, h⟩ := Option.map_eq_some_iff.mp h
          rw [d1, setParam_self, ← d1] at h; exact h.symm
        · split at h
          · obtain ⟨v, _, h⟩ := Option.map_eq_some_iff.mp h
            rw [d2, setParam_self, ← d2] at h; exact h.symm
          · exact (Option.some.inj h).symm

theorem xidGroup_same {priv : Bool} : ∀ (n : Nat) {s s' : Lapm} {len : Nat} {buf : List Nat}, Defaults s → xidGroup priv n s len buf = some s' → s' = s := by
  intro n
  induction n with
  | zero => intro s s' len buf _ h; rw [xidGroup] at h; exact (Option.some.inj h).symm
  | succ n ih =>
    intro s s' len buf hd h
    unfold xidGroup at h
    split at h
    · exact (Option.some.inj h).symm
    · split at h
      · split at h
        · exact (Option.some.inj h).symm
        · obtain ⟨s1, h1, h2⟩ := Option.bind_eq_some_iff.mp h
          rw [xidParam_same hd h1] at h2
          exact ih hd h2
      · cases h

theorem xidGroups_same : ∀ (n : Nat) {s s' : Lapm} {len : Nat} {buf : List Nat}, Defaults s → xidGroups n s len buf = some s' → s' = s := by
  intro n
  induction n with
  | zero => intro s s' len buf _ h; rw [xidGroups] at h; exact (Option.some.inj h).symm
  | succ n ih =>
    intro s s' len buf hd h
    unfold xidGroups at h
    split at h
    · exact (Option.some.inj h).symm
    · split at h
      · split at h
        · exact (Option.some.inj h).symm
        · obtain ⟨s1, h1, h2⟩ := Option.bind_eq_some_iff.mp h
          have : s1 = s := by
            split at h1
            · exact xidGroup_same _ hd h1
            · split at h1
              · exact xidGroup_same _ hd h1
              · exact (Option.some.inj h1).symm
          rw [this] at h2
          exact ih hd h2
      · cases h

/-- C46. The XID frames of the other side never change the window or the longest frame, whatever they say: they stay what `v42_init` made them, on both sides. -/
theorem xid_no_effect (s : Lapm) (hd : Defaults s) (frame : Frame) (s' : Lapm) (h : receiveXid s frame = some s') : s' = s := by
  unfold receiveXid at h
  split at h
  · split at h
    · exact (Option.some.inj h).symm
    · exact xidGroups_same _ hd h
  · cases h

example : Defaults (init true) ∧ (receiveXid (init true) [3, 0xAF, 0x82, 0x80, 0, 6, 0x07, 1, 10, 0x08, 1, 20]).isSome = true := by
  constructor
  · exact ⟨rfl, rfl, rfl, rfl⟩
  · decide +kernel

/-- C46. What is agreed on, for any value held and any value received: if both are below the default the larger one, if neither is below it the smaller one, and
otherwise the default. -/
theorem param_agreed (param value deflt : Nat) :
    (param < deflt → value < deflt → setParam param value deflt = max param value) ∧
    (deflt ≤ param → deflt ≤ value → setParam param value deflt = min param value) ∧
    (param < deflt → deflt ≤ value → setParam param value deflt = deflt) ∧
    (deflt ≤ param → value < deflt → setParam param value deflt = deflt) := by
  unfold setParam
  refine ⟨?_, ?_, ?_, ?_⟩ <;> intro h1 h2
  · rw [if_neg (by omega)]
    split <;> omega
  · rw [if_neg (by omega)]
    split <;> omega
  · rw [if_pos (by omega)]
  · rw [if_pos (by omega)]

example : setParam 64 100 128 = 100 ∧ setParam 200 150 128 = 150 ∧ setParam 64 200 128 = 128 := by decide

/-! ## Hostile frames -/

/-- C44, C47. An acknowledgement of something which has not been sent, or which was acknowledged before, is not believed: the connection is given up, and nothing is
taken as received by the other side. -/
theorem ack_not_sent (s : Lapm) (nr : Nat) (h1 : s.va < 128) (h2 : s.vs < 128) (h3 : nr < 128) (h4 : s.txK < 128)
    (h : (s.vs + 128 - s.va) % 128 < (nr + 128 - s.va) % 128) : ackInfo s nr = disconnect s := by
  unfold ackInfo
  rw [if_pos (by omega)]

example : (120 : Nat) < 128 ∧ (((3 : Nat) + 128 - 120) % 128 < (4 + 128 - 120) % 128) ∧ ((3 : Nat) + 128 - 120) % 128 < (119 + 128 - 120) % 128 := by decide

/-- C47. Whatever the state of a side, a frame of at least three octets which is not an XID frame, and a frame of two octets which is an unnumbered frame other than XID, is processed without using
an octet outside of it. -/
theorem receive_safe_partial (s : Lapm) (sup : Supply) (addr b : Nat) (t : List Nat) (hx : b &&& 3 = 3 → b &&& 0xEC ≠ 0xAC) (ht : b &&& 3 ≠ 3 → t ≠ []) : (receive s sup (addr :: b :: t)).isSome = true := by
  rw [receive]
  split
  · rename_i h3
    have hx := hx h3
    split
    · unfold rxUnnumberedCmd
      split
      · rfl
      · split
        · rfl
        · rfl
    · unfold rxUnnumberedRsp
      split
      · rfl
      · split
        · rfl
        · rfl
  · rename_i h3
    obtain ⟨c, d, rfl⟩ := List.exists_cons_of_ne_nil (ht h3)
    split
    · simp only
      split <;> rfl
    · rw [receiveInformation]
      simp only
      repeat' split
      all_goals rfl

example : (receive (init false) none [1, 0, 0]).isSome = true ∧ (receive (init false) none [1, 0x43]).isSome = true := by decide +kernel

/-- A frame of two octets on a connection, and an XID frame which ends after the identifier of a parameter. -/
theorem short_frames : receive { init false with state := .data } none [3, 0] = none ∧ receive { init false with state := .data } none [3, 1] = none ∧
    receive (init false) none [3, 0xAF, 0x82, 0x80, 0, 1, 5] = none := by decide +kernel

end V42
