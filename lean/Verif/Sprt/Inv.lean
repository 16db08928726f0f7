import Verif.Sprt.Dir

/-!
# The invariant of two endpoints
-/

namespace Sprt

set_option linter.unusedSimpArgs false
set_option linter.unusedVariables false

/-- The reliable channels. -/
def Rel (c : Nat) : Prop := c = 1 ∨ c = 2

/-! ## The fields of a datagram -/

def pktChan (pkt : List Nat) : Nat := get16 pkt 2 / 16384 % 4
def pktSeq (pkt : List Nat) : Nat := get16 pkt 2 % 16384
def pktNoa (pkt : List Nat) : Nat := get16 pkt 4 / 16384 % 4
def pktAcks (pkt : List Nat) : List Nat := (List.range (pktNoa pkt)).map fun i => get16 pkt (6 + 2 * i)
def pktPay (pkt : List Nat) : List Nat := pkt.drop (6 + 2 * pktNoa pkt)

theorem get16_be16 {n : Nat} (h : n < 65536) (l : List Nat) : get16 (be16 n ++ l) 0 = n := by
  simp [get16, be16]
  omega

theorem get16_skip (a b : Nat) (l : List Nat) (i : Nat) : get16 (a :: b :: l) (i + 2) = get16 l i := by
  simp [get16]

theorem get16_skip_be16 (n : Nat) (l : List Nat) (i : Nat) : get16 (be16 n ++ l) (i + 2) = get16 l i := by
  simp [get16, be16]

theorem acks_read (q : List Nat) (hq : ∀ v ∈ q, v < 65536) (l : List Nat) :
    (List.range q.length).map (fun i => get16 (q.flatMap be16 ++ l) (2 * i)) = q := by
  induction q with
  | nil => rfl
  | cons v q ih =>
    rw [List.length_cons, List.range_succ_eq_map, List.map_cons, List.map_map]
    simp only [List.flatMap_cons, List.append_assoc, Nat.mul_zero]
    rw [get16_be16 (hq v List.mem_cons_self)]
    congr 1
    refine Eq.trans ?_ (ih fun u hu => hq u (List.mem_cons_of_mem _ hu))
    apply List.map_congr_left
    intro i _
    show get16 _ (2 * (i + 1)) = _
    rw [Nat.mul_add]
    exact get16_skip_be16 _ _ _

theorem flat_length (q : List Nat) : (q.flatMap be16).length = 2 * q.length := by
  induction q with
  | nil => rfl
  | cons v q ih => simp [be16, List.flatMap_cons, ih] ; omega

/-- What is read from a datagram is what it was made of. -/
theorem packet_fields (e : Ep) (c seq : Nat) (p : List Nat) (hc : c ≤ 3) (hq : ∀ v ∈ e.ackQueue, v < 65536)
    (hl : e.ackQueue.length ≤ 3) (hb : (e.rx c).baseSeq < 16384) :
    pktChan (packet e c seq p) = c ∧ pktSeq (packet e c seq p) = seq % 16384 ∧ pktNoa (packet e c seq p) = e.ackQueue.length
      ∧ pktAcks (packet e c seq p) = e.ackQueue ∧ pktPay (packet e c seq p) = p
      ∧ (packet e c seq p).length = 6 + 2 * e.ackQueue.length + p.length := by
  have h2 : get16 (packet e c seq p) 2 = c * 16384 + seq % 16384 := by
    unfold packet
    simp only [List.append_assoc, List.cons_append, List.nil_append]
    rw [show (2 : Nat) = 0 + 2 from rfl, get16_skip, get16_be16]
    have := Nat.mod_lt seq (show 0 < 16384 by decide)
    omega
  have h4 : get16 (packet e c seq p) 4 = e.ackQueue.length * 16384 + (e.rx c).baseSeq := by
    unfold packet
    simp only [List.append_assoc, List.cons_append, List.nil_append]
    rw [show (4 : Nat) = 2 + 2 from rfl, get16_skip, show (2 : Nat) = 0 + 2 from rfl, get16_skip_be16, get16_be16]
    omega
  have hs := Nat.mod_lt seq (show 0 < 16384 by decide)
  have hn : pktNoa (packet e c seq p) = e.ackQueue.length := by unfold pktNoa; rw [h4]; omega
  refine ⟨by unfold pktChan; rw [h2]; omega, by unfold pktSeq; rw [h2]; omega, hn, ?_, ?_, ?_⟩
  · unfold pktAcks
    rw [hn]
    refine Eq.trans ?_ (acks_read e.ackQueue hq p)
    apply List.map_congr_left
    intro i _
    unfold packet
    simp only [List.append_assoc, List.cons_append, List.nil_append]
    rw [show 6 + 2 * i = (2 * i + 4) + 2 by omega, get16_skip, show 2 * i + 4 = (2 * i + 2) + 2 by omega, get16_skip_be16,
      get16_skip_be16]
  · unfold pktPay
    rw [hn]
    unfold packet
    have := flat_length e.ackQueue
    rw [List.drop_append_of_le_length (by simp [be16, this]; omega), List.drop_of_length_le (by simp [be16, this]; omega), List.nil_append]
  · unfold packet
    have := flat_length e.ackQueue
    simp [be16, this]; omega

/-! ## The log -/

theorem given_append (x : Bool) (c : Nat) (l m : Log) : given x c (l ++ m) = given x c l ++ given x c m :=
  List.filterMap_append

theorem got_append (x : Bool) (c : Nat) (l m : Log) : got x c (l ++ m) = got x c l ++ got x c m :=
  List.filterMap_append

theorem accepts_eq (x : Bool) (c : Nat) (l : Log) : accepts x c l = (given x c l).length := by
  unfold accepts given
  induction l with
  | nil => rfl
  | cons r l ih =>
    rcases r with ⟨y, a⟩
    cases a with
    | accepted d p =>
      by_cases h : y = x ∧ d = c
      · simp [h, ih]
      · have hf : ¬ (decide (y = x) && decide (d = c)) = true := by simpa using h
        rw [List.filterMap_cons]
        simp only [if_neg h]
        rw [List.filter_cons_of_neg (by simpa using h)]
        exact ih
    | sent pkt => simpa using ih
    | delivered d n p => simpa using ih
    | status n => simpa using ih

theorem accepts_split (x : Bool) (c : Nat) (l : Log) (k : Nat) :
    accepts x c l = accepts x c (l.take k) + accepts x c (l.drop k) := by
  rw [accepts_eq, accepts_eq, accepts_eq, ← List.length_append, ← given_append, List.take_append_drop]

/-- What an endpoint has or is about to have: of the endpoint, the channel and the number of the payload. -/
abbrev Has := Bool → Nat → Nat → Prop

/-- What is said of a datagram which `y` sent and which is at `k` in the log. -/
structure Good (P : Has) (Λ : Log) (k : Nat) (y : Bool) (pkt : List Nat) : Prop where
  data : Rel (pktChan pkt) → pktPay pkt ≠ [] → ∃ a, pktSeq pkt = a % 16384 ∧ (given y (pktChan pkt) Λ)[a]? = some (pktPay pkt)
    ∧ accepts y (pktChan pkt) (Λ.take k) ≤ a + 95
  loose : ¬ Rel (pktChan pkt) → pktPay pkt ≠ [] → pktPay pkt ∈ given y (pktChan pkt) Λ
  acks : ∀ v ∈ pktAcks pkt, Rel (v / 16384 % 4) → ∃ a, v % 16384 = a % 16384 ∧ P y (v / 16384 % 4) a
    ∧ accepts (!y) (v / 16384 % 4) (Λ.take k) ≤ a + 8000

/-- What is said of the acknowledgements which wait to be sent. -/
def QOk (P : Nat → Nat → Prop) (q : List Nat) : Prop :=
  ∀ j v, q[j]? = some v → Rel (v / 16384) ∧ ∃ a, v % 16384 = a % 16384 ∧ P (v / 16384) a
    ∧ ∀ b, P (v / 16384) b → b ≤ a + 7191 + 96 * (q.length - 1 - j)

/-- The invariant: what the channels, the acknowledgements which wait and the log have to do with each other. -/
structure Inv (T : Bool → Nat → TxChan) (R : Bool → Nat → RxChan) (Q : Bool → List Nat) (Λ : Log) (P : Has) : Prop where
  dir : ∀ x c, Rel c → Dir (T x c) (R (!x) c) (given x c Λ) (got (!x) c Λ)
  has : ∀ x c a, Rel c → Received (R x c) (got x c Λ).length a → P x c a
  queue : ∀ x, QOk (P x) (Q x)
  short : ∀ x, (Q x).length ≤ 3
  base : ∀ x c, (R x c).baseSeq < 16384
  log : ∀ k y pkt, Λ[k]? = some (y, .sent pkt) → Good P Λ k y pkt
  loose : ∀ x c, ¬ Rel c → ∀ g ∈ got x c Λ, g.2 ∈ given (!x) c Λ

theorem Good.keep {P P' : Has} {Λ new : Log} {k : Nat} {y : Bool} {pkt : List Nat} (h : Good P Λ k y pkt)
    (hk : k ≤ Λ.length) (hm : ∀ y c a, Rel c → P y c a → P' y c a) : Good P' (Λ ++ new) k y pkt := by
  have ht : (Λ ++ new).take k = Λ.take k := List.take_append_of_le_length hk
  refine ⟨?_, ?_, ?_⟩
  · intro h1 h2
    obtain ⟨a, k1, k2, k3⟩ := h.data h1 h2
    refine ⟨a, k1, ?_, by rw [ht]; exact k3⟩
    rw [given_append, List.getElem?_append_left (List.getElem?_eq_some_iff.mp k2).1]; exact k2
  · intro h1 h2
    rw [given_append]
    exact List.mem_append_left _ (h.loose h1 h2)
  · intro v hv hr
    obtain ⟨a, k1, k2, k3⟩ := h.acks v hv hr
    exact ⟨a, k1, hm _ _ _ hr k2, by rw [ht]; exact k3⟩

/-- The invariant after something was done. -/
theorem Inv.next {T T' : Bool → Nat → TxChan} {R R' : Bool → Nat → RxChan} {Q Q' : Bool → List Nat} {Λ : Log} {P P' : Has}
    (h : Inv T R Q Λ P) (new : Log)
    (hdir : ∀ x c, Rel c → Dir (T' x c) (R' (!x) c) (given x c (Λ ++ new)) (got (!x) c (Λ ++ new)))
    (hhas : ∀ x c a, Rel c → Received (R' x c) (got x c (Λ ++ new)).length a → P' x c a)
    (hq : ∀ x, QOk (P' x) (Q' x)) (hs : ∀ x, (Q' x).length ≤ 3)
    (hb : ∀ x c, (R' x c).baseSeq < 16384) (hm : ∀ y c a, Rel c → P y c a → P' y c a)
    (hl : ∀ x c, ¬ Rel c → ∀ g ∈ got x c new, g.2 ∈ given (!x) c (Λ ++ new))
    (hnew : ∀ k y pkt, Λ.length ≤ k → (Λ ++ new)[k]? = some (y, .sent pkt) → Good P' (Λ ++ new) k y pkt) :
    Inv T' R' Q' (Λ ++ new) P' := by
  refine ⟨hdir, hhas, hq, hs, hb, ?_, ?_⟩
  · intro k y pkt hk
    rcases Nat.lt_or_ge k Λ.length with h1 | h1
    · rw [List.getElem?_append_left h1] at hk
      exact (h.log k y pkt hk).keep (by omega) hm
    · exact hnew k y pkt h1 hk
  · intro x c hc g hg
    rw [got_append] at hg
    rcases List.mem_append.mp hg with hg | hg
    · rw [given_append]; exact List.mem_append_left _ (h.loose x c hc g hg)
    · exact hl x c hc g hg

/-! ## One endpoint does something, the other does not -/

/-- What belongs to `x`, and what belongs to the other. -/
def pick {α : Type} (x : Bool) (a b : α) (y : Bool) : α := if y = x then a else b

@[simp] theorem pick_same {α : Type} (x : Bool) (a b : α) : pick x a b x = a := by simp [pick]
@[simp] theorem pick_not {α : Type} (x : Bool) (a b : α) : pick x a b (!x) = b := by cases x <;> rfl

theorem two (x : Bool) {p : Bool → Prop} (h1 : p x) (h2 : p (!x)) : ∀ y, p y := by
  intro y
  cases x <;> cases y <;> assumption

/-- The log, when `x` has done something since it was `g`. -/
def logOf (x : Bool) (g : Log) (e : Ep) : Log := g ++ e.acts.map fun a => (x, a)

/-- The invariant, while endpoint `x` is at `e` and the other is at `f`. -/
def HoldP (f : Ep) (x : Bool) (g : Log) (P : Has) (e : Ep) : Prop :=
  Inv (pick x e.tx f.tx) (pick x e.rx f.rx) (pick x e.ackQueue f.ackQueue) (logOf x g e) P

/-- What an endpoint has received. -/
def has (f : Ep) (x : Bool) (g : Log) (e : Ep) : Has :=
  fun y c a => Received (pick x e.rx f.rx y c) (got y c (logOf x g e)).length a

/-- The invariant, when endpoint `x` has come to an end with what it does. -/
def Hold (f : Ep) (x : Bool) (g : Log) (e : Ep) : Prop := HoldP f x g (has f x g e) e

theorem HoldP.congr {f : Ep} {x : Bool} {g : Log} {P : Has} {e e' : Ep} (h : HoldP f x g P e) (ht : e'.tx = e.tx)
    (hr : e'.rx = e.rx) (hq : e'.ackQueue = e.ackQueue) (ha : e'.acts = e.acts) : HoldP f x g P e' := by
  unfold HoldP logOf at *
  rw [ht, hr, hq, ha]; exact h

theorem has_congr {f : Ep} {x : Bool} {g : Log} {e e' : Ep} (hr : e'.rx = e.rx)
    (ha : ∀ y c, got y c (logOf x g e') = got y c (logOf x g e)) : has f x g e' = has f x g e := by
  funext y c a
  unfold has
  rw [hr, ha]

theorem Hold.congr {f : Ep} {x : Bool} {g : Log} {e e' : Ep} (h : Hold f x g e) (ht : e'.tx = e.tx)
    (hr : e'.rx = e.rx) (hq : e'.ackQueue = e.ackQueue) (ha : e'.acts = e.acts) : Hold f x g e' := by
  unfold Hold
  rw [has_congr hr (by intro y c; unfold logOf; rw [ha])]
  exact HoldP.congr h ht hr hq ha

theorem logOf_emit (x : Bool) (g : Log) (e : Ep) (a : Act) : logOf x g (e.emit a) = logOf x g e ++ [(x, a)] := by
  simp [logOf, Ep.emit]

@[simp] theorem updateTimer_tx (e : Ep) : (updateTimer e).tx = e.tx := by unfold updateTimer; split <;> rfl
@[simp] theorem updateTimer_rx (e : Ep) : (updateTimer e).rx = e.rx := by unfold updateTimer; split <;> rfl
@[simp] theorem updateTimer_q (e : Ep) : (updateTimer e).ackQueue = e.ackQueue := by unfold updateTimer; split <;> rfl
@[simp] theorem updateTimer_acts (e : Ep) : (updateTimer e).acts = e.acts := by unfold updateTimer; split <;> rfl

theorem buildSend_tx (e : Ep) (c seq : Nat) (p : List Nat) : (buildSend e c seq p).tx = e.tx := by
  unfold buildSend; simp [Ep.emit]; split <;> rfl
theorem buildSend_rx (e : Ep) (c seq : Nat) (p : List Nat) : (buildSend e c seq p).rx = e.rx := by
  unfold buildSend; simp [Ep.emit]; split <;> rfl
theorem buildSend_q (e : Ep) (c seq : Nat) (p : List Nat) : (buildSend e c seq p).ackQueue = [] := by
  unfold buildSend; simp [Ep.emit]
  split
  · rfl
  · next h => simpa using h
theorem buildSend_acts (e : Ep) (c seq : Nat) (p : List Nat) : (buildSend e c seq p).acts = e.acts ++ [.sent (packet e c seq p)] := by
  unfold buildSend; simp [Ep.emit]; split <;> rfl

theorem logOf_buildSend (x : Bool) (g : Log) (e : Ep) (c seq : Nat) (p : List Nat) :
    logOf x g (buildSend e c seq p) = logOf x g e ++ [(x, .sent (packet e c seq p))] := by
  simp [logOf, buildSend_acts]

theorem given_sent (y x : Bool) (c : Nat) (l : Log) (pkt : List Nat) : given y c (l ++ [(x, .sent pkt)]) = given y c l := by
  rw [given_append]; simp [given]

theorem got_sent (y x : Bool) (c : Nat) (l : Log) (pkt : List Nat) : got y c (l ++ [(x, .sent pkt)]) = got y c l := by
  rw [got_append]; simp [got]

theorem given_status (y x : Bool) (c : Nat) (l : Log) (n : Nat) : given y c (l ++ [(x, .status n)]) = given y c l := by
  rw [given_append]; simp [given]

theorem got_status (y x : Bool) (c : Nat) (l : Log) (n : Nat) : got y c (l ++ [(x, .status n)]) = got y c l := by
  rw [got_append]; simp [got]

theorem got_singleton {y x : Bool} {c d n : Nat} {p : List Nat} :
    got y c [(x, .delivered d n p)] = if x = y ∧ d = c then [(n, p)] else [] := by
  unfold got
  by_cases h : x = y ∧ d = c
  · simp [h]
  · rw [if_neg h]
    simp [List.filterMap_cons, h]

theorem given_singleton {y x : Bool} {c d : Nat} {p : List Nat} :
    given y c [(x, .accepted d p)] = if x = y ∧ d = c then [p] else [] := by
  unfold given
  by_cases h : x = y ∧ d = c
  · simp [h]
  · rw [if_neg h]
    simp [List.filterMap_cons, h]

/-- Something that is neither given, nor delivered, nor sent is put in the log, and nothing else changes. -/
theorem HoldP.status {f : Ep} {x : Bool} {g : Log} {P : Has} {e : Ep} (h : HoldP f x g P e) (n : Nat) :
    HoldP f x g P (e.emit (.status n)) := by
  unfold HoldP at *
  rw [logOf_emit]
  refine h.next _ ?_ ?_ h.queue h.short h.base (fun _ _ _ _ h => h) ?_ ?_
  · intro y c hc
    rw [given_status, got_status]; exact h.dir y c hc
  · intro y c a hc
    rw [got_status]; exact h.has y c a hc
  · intro y c _ g hg
    simp [got] at hg
  · intro k y pkt hk hs
    rw [List.getElem?_append_right hk] at hs
    rcases hd : k - (logOf x g e).length with _ | m
    · rw [hd] at hs; simp at hs
    · rw [hd] at hs; simp at hs

/-- A datagram is sent. -/
theorem HoldP.send {f : Ep} {x : Bool} {g : Log} {P : Has} {e : Ep} (h : HoldP f x g P e) {c seq : Nat} {p : List Nat} (hc : c ≤ 3)
    (hdata : Rel c → p ≠ [] → ∃ a, seq % 16384 = a % 16384 ∧ (given x c (logOf x g e))[a]? = some p
      ∧ (given x c (logOf x g e)).length ≤ a + 95)
    (hloose : ¬ Rel c → p ≠ [] → p ∈ given x c (logOf x g e)) : HoldP f x g P (buildSend e c seq p) := by
  have hq := h.queue x
  rw [pick_same] at hq
  have hshort := h.short x
  rw [pick_same] at hshort
  have hbase := h.base x c
  rw [pick_same] at hbase
  have h64 : ∀ v ∈ e.ackQueue, v < 65536 := by
    intro v hv
    obtain ⟨j, hj⟩ := List.mem_iff_getElem?.mp hv
    rcases (hq j v hj).1 with h1 | h1 <;> omega
  obtain ⟨f1, f2, f3, f4, f5, -⟩ := packet_fields e c seq p hc h64 hshort hbase
  unfold HoldP at *
  rw [logOf_buildSend, buildSend_tx, buildSend_rx, buildSend_q]
  refine h.next _ ?_ ?_ ?_ ?_ h.base (fun _ _ _ _ h => h) ?_ ?_
  · intro y d hd
    rw [given_sent, got_sent]; exact h.dir y d hd
  · intro y c a hc
    rw [got_sent]; exact h.has y c a hc
  · refine two x ?_ ?_
    · rw [pick_same]; intro j v hv; simp at hv
    · have := h.queue (!x)
      rw [pick_not] at *; exact this
  · refine two x ?_ ?_
    · rw [pick_same]; simp
    · have := h.short (!x)
      rw [pick_not] at *; exact this
  · intro y c _ g hg
    simp [got] at hg
  · intro k y pkt hk hs
    rw [List.getElem?_append_right hk] at hs
    rcases hd : k - (logOf x g e).length with _ | m
    · rw [hd] at hs
      simp at hs
      obtain ⟨rfl, rfl⟩ := hs
      have hkk : k = (logOf x g e).length := by omega
      have htake : ∀ l, (logOf x g e ++ l).take k = logOf x g e := by
        intro l; rw [hkk]; simp
      refine ⟨?_, ?_, ?_⟩
      · rw [f1, f2, f5, given_sent, htake]
        intro h1 h2
        obtain ⟨a, k1, k2, k3⟩ := hdata h1 h2
        exact ⟨a, k1, k2, by rw [accepts_eq]; exact k3⟩
      · rw [f1, f5, given_sent]; exact hloose
      · rw [f4]
        intro v hv hr
        obtain ⟨j, hj⟩ := List.mem_iff_getElem?.mp hv
        obtain ⟨k1, a, k2, k3, k4⟩ := hq j v hj
        have hv4 : v / 16384 % 4 = v / 16384 := by
          rcases k1 with k1 | k1 <;> omega
        rw [hv4, htake]
        refine ⟨a, k2, k3, ?_⟩
        rw [accepts_eq]
        have hdir := h.dir (!x) (v / 16384) k1
        have hah := hdir.ahead
        rw [Bool.not_not] at hah
        have hhas := h.has x (v / 16384)
        rcases Nat.eq_zero_or_pos (got x (v / 16384) (logOf x g e)).length with h0 | h0
        · omega
        · have := k4 _ (hhas ((got x (v / 16384) (logOf x g e)).length - 1) k1 (Or.inl (by omega)))
          omega
    · rw [hd] at hs; simp at hs

theorem has_buildSend {f : Ep} {x : Bool} {g : Log} {e : Ep} {c seq : Nat} {p : List Nat} :
    has f x g (buildSend e c seq p) = has f x g e :=
  has_congr (buildSend_rx _ _ _ _) (by intro y c; rw [logOf_buildSend, got_sent])

/-- A datagram without a payload is sent. -/
theorem HoldP.ackOnly {f : Ep} {x : Bool} {g : Log} {P : Has} {e : Ep} (h : HoldP f x g P e) {c seq : Nat} (hc : c ≤ 3) :
    HoldP f x g P (buildSend e c seq []) :=
  h.send hc (fun _ h => absurd rfl h) (fun _ h => absurd rfl h)

end Sprt
