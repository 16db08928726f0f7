import Verif.T38.History

/-! # Properties of the T.38 packet layer -/

namespace T38

/-! ## C41: packets over a network which loses, repeats and reorders them -/

/-- Whatever the application sends, one packet is sent for each message which is told, and whichever of these packets the network delivers in whichever order, as long as none is 2000 or more
away from the next one expected, the receiver hears what `heard` says: the messages of the packets which come in order, once, exactly as they were sent, and which packets are missing. -/
theorem packets_heard (tx rx : Core) (msgs : List (Msg × Nat)) (hv : rx.version = tx.version) (ht : rx.transport = tx.transport) (hc : tx.category 0 ≠ 0) (hs : tx.txSeq < 65536)
    (hck : rx.check = true) (he : rx.rxExpected = -1) (hg : ∀ m ∈ msgs, m.1.Good tx.version) :
    ∃ tx' pk, sendAll tx msgs = some (tx', pk) ∧ pk.length = (told tx.txIndicator (msgs.map Prod.fst)).length ∧
      ∀ xs : List Nat, (∀ x ∈ xs, x < pk.length) → Near none xs →
        ∃ rx', hear rx (xs.filterMap (pk[·]?)) = some (rx', heard (told tx.txIndicator (msgs.map Prod.fst)) tx.txSeq none xs) := by
  obtain ⟨tx', h1⟩ := sendAll_eq msgs tx hc hs hg
  refine ⟨tx', _, h1, numbered_length _ _ _, fun xs hx hn => ?_⟩
  rw [numbered_length] at hx
  have hg' : ∀ m ∈ told tx.txIndicator (msgs.map Prod.fst), m.Good tx.version := by
    intro m hm
    obtain ⟨p, hp, rfl⟩ := List.mem_map.mp (told_mem _ _ _ hm)
    exact hg p hp
  obtain ⟨rx', h2⟩ := hear_eq tx _ tx.txSeq hg' xs rx none hv ht hck hx hn he
  refine ⟨rx', ?_⟩
  rw [← h2]
  congr 1
  unfold arrivals
  congr 1
  funext x
  rw [numbered_get]

/-- The report of missing packets. -/
def Ev.isMissing : Ev → Bool
  | .missing _ _ => true
  | _ => false

theorem events_filter (m : Msg) : m.events.filter (fun e => !e.isMissing) = m.events := by
  cases m with
  | indicator i => rfl
  | data t fs =>
    rw [Msg.events, List.filter_eq_self]
    intro e he
    obtain ⟨f, _, rfl⟩ := List.mem_map.mp he
    rfl

/-- `heard` says this: but for the reports of missing packets, these are the messages of some of the packets delivered, each at most once and in the order in which they were sent. -/
theorem heard_once (msgs : List Msg) (first : Nat) : ∀ (xs : List Nat) (next : Option Nat), ∃ ys : List Nat, ys.Sublist xs ∧ ys.Pairwise (· < ·) ∧ (∀ y ∈ ys, next.getD 0 ≤ y) ∧
    (heard msgs first next xs).filter (fun e => !e.isMissing) = ys.flatMap fun y => (msgs[y]?.map Msg.events).getD [] := by
  have hf : ∀ y : Nat, (((msgs[y]?.map Msg.events).getD []).filter fun e => !e.isMissing) = (msgs[y]?.map Msg.events).getD [] := by
    intro y
    cases msgs[y]? with
    | none => rfl
    | some m => exact events_filter m
  intro xs
  induction xs with
  | nil => intro next; exact ⟨[], List.Sublist.refl _, List.Pairwise.nil, by simp, by cases next <;> rfl⟩
  | cons x t ih =>
    intro next
    have take : next.getD 0 ≤ x → ∀ evs : List Ev, (evs.filter fun e => !e.isMissing) = [] →
        heard msgs first next (x :: t) = evs ++ (msgs[x]?.map Msg.events).getD [] ++ heard msgs first (some (x + 1)) t →
        ∃ ys : List Nat, ys.Sublist (x :: t) ∧ ys.Pairwise (· < ·) ∧ (∀ y ∈ ys, next.getD 0 ≤ y) ∧
          (heard msgs first next (x :: t)).filter (fun e => !e.isMissing) = ys.flatMap fun y => (msgs[y]?.map Msg.events).getD [] := by
      intro h0 evs he hh
      obtain ⟨ys, h1, h2, h3, h4⟩ := ih (some (x + 1))
      simp only [Option.getD_some] at h3
      refine ⟨x :: ys, h1.cons_cons x, List.pairwise_cons.mpr ⟨fun y hy => h3 y hy, h2⟩, ?_, ?_⟩
      · intro y hy
        rcases List.mem_cons.mp hy with h | h
        · omega
        · have := h3 y h; omega
      · rw [hh, List.filter_append, List.filter_append, he, hf, h4]
        simp
    cases next with
    | none => exact take (Nat.zero_le _) [] rfl (by rw [heard]; simp)
    | some n =>
      by_cases hx : x < n
      · obtain ⟨ys, h1, h2, h3, h4⟩ := ih (some n)
        exact ⟨ys, h1.cons x, h2, h3, by rw [heard, if_pos hx]; exact h4⟩
      · refine take (by simp only [Option.getD_some]; omega) (if x = n then [] else [Ev.missing (((first + n) % 65536 : Nat) : Int) (((first + x) % 65536 : Nat) : Int)]) ?_ ?_
        · split <;> rfl
        · rw [heard, if_neg hx]

/-- And when all packets come in order, all messages are heard and nothing is missing. -/
theorem heard_all (msgs : List Msg) (first : Nat) : heard msgs first none (List.range msgs.length) = msgs.flatMap Msg.events := by
  have go : ∀ n k, k + n = msgs.length → heard msgs first (some k) (List.range' k n) = (msgs.drop k).flatMap Msg.events := by
    intro n
    induction n with
    | zero => intro k h; rw [List.drop_of_length_le (by omega)]; rfl
    | succ n ih =>
      intro k h
      have hk : k < msgs.length := by omega
      rw [List.range'_succ, heard, if_neg (by omega), if_pos rfl, ih (k + 1) (by omega), List.drop_eq_getElem_cons hk, List.getElem?_eq_getElem hk, List.flatMap_cons]
      rfl
  rw [List.range_eq_range']
  cases msgs with
  | nil => rfl
  | cons m t =>
    rw [List.length_cons, List.range'_succ, heard]
    have := go t.length 1 (by rw [List.length_cons]; omega)
    rw [this]
    simp

/-- A network which loses packet 1, repeats packet 2 and delivers packet 3 after packet 4. The number of packet 2 is 0. -/
example : let tx := { init with txSeq := 65534, version := 1 }
    let ms : List (Msg × Nat) := [(.indicator 2, 0), (.indicator 2, 0), (.indicator 17, 0), (.data 0 [⟨0, [1, 2, 3]⟩, ⟨2, []⟩], 1), (.indicator 0, 0), (.data 12 [], 2)]
    (sendAll tx ms).bind (fun p => (hear { init with version := 1 } ([0, 2, 2, 4, 3].filterMap (p.2[·]?))).map Prod.snd) =
      some [.indicator 2, .missing 65535 0, .data 0 ⟨0, [1, 2, 3]⟩, .data 0 ⟨2, []⟩, .missing 1 2] ∧
    Near none [0, 2, 2, 4, 3] ∧
    heard (told (-1) (ms.map Prod.fst)) 65534 none [0, 2, 2, 4, 3] = [.indicator 2, .missing 65535 0, .data 0 ⟨0, [1, 2, 3]⟩, .data 0 ⟨2, []⟩, .missing 1 2] := by
  refine ⟨by decide +kernel, ?_, by decide +kernel⟩
  simp [Near]

example : (Msg.data 0 [⟨0, [1, 2, 3]⟩, ⟨2, []⟩]).Good 0 := by simp [Msg.Good, Msg.Ok, Msg.size, FieldsOk, Field.Ok]

/-! ## C42: a stream which comes in any pieces -/

/-- Over TCP, with or without TPKT headers, the receiver hears exactly what was told, in whichever pieces the stream comes, and nothing is left. With TPKT the application has to wait for the
four octets of a header (see `tpkt_short_header`). -/
theorem stream_heard (tx rx : Core) (msgs : List (Msg × Nat)) (hv : rx.version = tx.version) (ht : rx.transport = tx.transport) (enough : Nat)
    (hen : tx.transport = .tcp ∧ enough = 0 ∨ tx.transport = .tpkt ∧ enough = 4) (hc : tx.category 0 ≠ 0) (hs : tx.txSeq < 65536) (hg : ∀ m ∈ msgs, m.1.Good tx.version) :
    ∃ tx' pk, sendAll tx msgs = some (tx', pk) ∧ ∀ pieces : List (List Byte), pieces.flatten = (pk.map Prod.snd).flatten →
      ∃ rx', listen enough rx [] pieces = some (rx', [], (told tx.txIndicator (msgs.map Prod.fst)).flatMap Msg.events) := by
  obtain ⟨tx', h1⟩ := sendAll_eq msgs tx hc hs hg
  refine ⟨tx', _, h1, fun pieces hp => ?_⟩
  rw [numbered_map] at hp
  refine listen_eq tx hen pieces rx [] _ hv ht ?_ (by rw [List.nil_append]; exact hp) ?_
  · intro m hm
    obtain ⟨p, hp, rfl⟩ := List.mem_map.mp (told_mem _ _ _ hm)
    exact hg p hp
  · intro m t _
    have := packet_pos tx m
    rw [List.length_nil]; omega

/-- Three messages over TPKT, octet by octet. -/
example : let s := { init with transport := .tpkt, version := 3 }
    (sendAll s [(.indicator 2, 0), (.data 0 [⟨0, [1, 2, 3]⟩, ⟨9, []⟩], 1), (.indicator 22, 0)]).bind (fun p =>
      (listen 4 s [] ((p.2.map Prod.snd).flatten.map fun b => [b])).map Prod.snd) =
    some ([], [.indicator 2, .data 0 ⟨0, [1, 2, 3]⟩, .data 0 ⟨9, []⟩, .indicator 22]) := by decide +kernel

/-! ## C43: any octets may be received -/

/-- What comes out of a call with any octets, in any state: it reads none outside of them, says at most that it has taken all of them, and calls no handler unless it has taken some. -/
theorem rx_any (s : Core) (buf : List Byte) : ∃ r s' evs, rxStream s buf = some (r, s', evs) ∧ r ≤ buf.length ∧ (r ≤ 0 → evs = []) := by
  unfold rxStream
  have h1 : Safe ((frame s buf).bind fun h => (stopIf (h.1 + 1 > h.2.1) h.2.2).bind fun _ => (octet buf h.1).map fun b => (h, b)) := by
    refine (frame_safe s buf).bind fun h e => ?_
    obtain ⟨f1, f2⟩ := frame_le e
    refine (Safe.stopIf _ f2).bind fun _ e => ?_
    have := stopIf_ok e
    exact (Safe.octet (by omega)).map
  cases hx : (frame s buf).bind fun h => (stopIf (h.1 + 1 > h.2.1) h.2.2).bind fun _ => (octet buf h.1).map fun b => (h, b) with
  | error e =>
    obtain ⟨r, hr, rfl⟩ := h1 e hx
    exact ⟨r, s, [], rfl, by omega, fun _ => rfl⟩
  | ok q =>
    obtain ⟨h, hf, hx⟩ := bind_eq_ok hx
    obtain ⟨u, hu, hx⟩ := bind_eq_ok hx
    obtain ⟨b, _, rfl⟩ := map_eq_ok hx
    obtain ⟨f1, f2⟩ := frame_le hf
    have hlt := stopIf_ok hu
    obtain ⟨ptr, pktLen, ret⟩ := h
    simp only at f1 f2 hlt ⊢
    split
    · split
      · exact ⟨_, _, _, rfl, by omega, fun _ => rfl⟩
      · cases hi : rxIndicatorType buf ptr pktLen ret b with
        | error e =>
          obtain ⟨r, hr, rfl⟩ := indicatorType_safe f2 b f1 e hi
          exact ⟨_, _, _, rfl, by omega, fun _ => rfl⟩
        | ok q =>
          obtain ⟨g1, g2⟩ := indicatorType_le (by omega) hi
          refine ⟨_, _, _, rfl, ?_, ?_⟩
          · rw [if_neg (by omega)]; omega
          · rw [if_neg (by omega)]; intro; omega
    · cases hi : rxData s.version buf ptr pktLen ret b with
      | error e =>
        obtain ⟨r, hr, rfl⟩ := rxData_safe f2 f1 e hi
        exact ⟨_, _, _, rfl, by omega, fun _ => rfl⟩
      | ok q =>
        obtain ⟨g1, g2⟩ := rxData_le f1 (by omega) hi
        refine ⟨_, _, _, rfl, ?_, ?_⟩
        · rw [if_neg (by omega)]; omega
        · rw [if_neg (by omega)]; intro; omega

/-- The same for packets with sequence numbers. -/
theorem rx_packet_any (s : Core) (buf : List Byte) (seq : Nat) : ∃ r s' evs, rxPacket s buf seq = some (r, s', evs) ∧ (r = 0 ∨ r = -1) := by
  unfold rxPacket
  split
  · exact ⟨_, _, _, rfl, Or.inl rfl⟩
  · split
    · exact ⟨_, _, _, rfl, Or.inr rfl⟩
    · rename_i s1 evs _ _
      obtain ⟨r, s', evs', h, _⟩ := rx_any { s1 with rxExpected := (s1.rxExpected + 1) % 0x10000 } buf
      refine ⟨_, _, _, by rw [h, Option.map_some], ?_⟩
      simp only
      split
      · exact Or.inr rfl
      · exact Or.inl rfl

/-- A field which says that it has more octets than there are. -/
example : (rxStream init [0xC0, 1, 0x80, 0, 9, 1, 2]).map (fun r => (r.1, r.2.2)) = some (-1, []) := by decide +kernel

/-! ## Where the code does less than one would like -/

/-- In version 0 fields without octets which are not the last are not heard as they were sent: each is written to an octet of its own, but two are read from one octet. -/
theorem version0_empty_fields : (sendData init true 0 [⟨2, []⟩, ⟨1, []⟩] 1).bind (fun r => r.packet.bind fun p => (rxPacket init p.2.1 p.1).map fun q => (q.1, q.2.2)) =
    some (-1, [.data 0 ⟨2, []⟩, .data 0 ⟨0, []⟩]) := by decide +kernel

/-- A message with 128 fields is sent with a number of fields of two octets, which is read from one octet. -/
theorem many_fields : (sendData { init with version := 1 } true 0 (List.replicate 128 ⟨2, []⟩) 1).bind
    (fun r => r.packet.bind fun p => (rxPacket { init with version := 1 } p.2.1 p.1).map fun q => (r.ret, q.1, q.2.2)) = some (0, -1, []) := by decide +kernel

/-- With a field of 996 octets the buffer of 1000 octets is overrun. -/
theorem send_overrun : (sendData init true 0 [⟨0, List.replicate 996 0⟩] 1).isNone = true := by decide +kernel

/-- With TPKT and the first octet of a header, or its first three, an indicator is heard which nobody has sent. -/
theorem tpkt_short_header : (rxStream { init with transport := .tpkt } [3]).map (fun r => (r.1, r.2.2)) = some (1, [.indicator 1]) ∧
    (rxStream { init with transport := .tpkt } [3, 0, 0]).map (fun r => (r.1, r.2.2)) = some (1, [.indicator 1]) := by decide +kernel

/-- The number of missing packets goes down when the sequence numbers roll over. -/
theorem missing_goes_down : (hear init [(65534, [0]), (1, [2])]).map (fun r => r.1.missing) = some (-65534) := by decide +kernel

end T38
