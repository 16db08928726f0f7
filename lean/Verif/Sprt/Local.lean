import Verif.Sprt.Links
import Mathlib.Data.List.Perm.Subperm

/-!
# One endpoint, whatever it is sent
-/

namespace Sprt

set_option linter.unusedSimpArgs false
set_option linter.unusedVariables false

/-- The queue of timers of a channel is `l`. If nothing was given up everything which is not acknowledged is in it. -/
structure Que (s : TxChan) (full : Prop) (l : List Nat) : Prop where
  lst : Lst s l
  nodup : l.Nodup
  mem : ∀ i ∈ l, i < s.window ∧ (s.buf i).isSome ∧ 1 ≤ s.tries i ∧ s.tries i ≤ 20
  all : full → ∀ i, (s.buf i).isSome → i ∈ l

/-- A sender's channel, but for the queue of timers. -/
structure TOk (c : Nat) (s : TxChan) : Prop where
  win : 8 ≤ s.window ∧ s.window < cap c
  snd : ∃ L O, Snd s L O
  tri : 1 ≤ s.maxTries ∧ s.maxTries ≤ 20
  size : ∀ i p, s.buf i = some p → p.length ≤ 256

/-- A receiver's channel. -/
structure ROk (c : Nat) (r : RxChan) : Prop where
  win : 8 ≤ r.window ∧ r.window < cap c
  inp : r.inPtr < r.window
  base : r.baseSeq < 16384
  size : ∀ i p, r.buf i = some p → 1 ≤ p.length ∧ p.length ≤ 256

/-- What can be said of an endpoint, whatever datagrams it was sent. `g` says that it gave something up before. -/
structure LInv (g : Prop) (e : Ep) : Prop where
  tx : ∀ c, Rel c → TOk c (e.tx c)
  que : ∀ c, Rel c → ∃ l, Que (e.tx c) (¬ (g ∨ .status 1 ∈ e.acts)) l
  rx : ∀ c, Rel c → ROk c (e.rx c)
  txp : ∀ c, (e.tx c).maxPayload ≤ 256
  rxp : ∀ c, (e.rx c).maxPayload ≤ 256
  queue : e.ackQueue.length ≤ 3
  sent : ∀ pkt, .sent pkt ∈ e.acts → 6 ≤ pkt.length ∧ pkt.length ≤ 268
  del : ∀ c n p, .delivered c n p ∈ e.acts → 1 ≤ p.length ∧ p.length ≤ 256

theorem Rel.cap {c : Nat} (h : Rel c) : Sprt.cap c ≤ 97 := by rcases h with rfl | rfl <;> simp [Sprt.cap]

theorem Que.mono {s : TxChan} {f f' : Prop} {l : List Nat} (h : Que s f l) (hf : f' → f) : Que s f' l :=
  ⟨h.lst, h.nodup, h.mem, fun k => h.all (hf k)⟩

theorem LInv.congr {g : Prop} {e e' : Ep} (h : LInv g e) (ht : e'.tx = e.tx) (hr : e'.rx = e.rx) (hq : e'.ackQueue.length ≤ 3)
    (ha : e'.acts = e.acts) : LInv g e' := by
  constructor
  · rw [ht]; exact h.tx
  · rw [ht, ha]; exact h.que
  · rw [hr]; exact h.rx
  · rw [ht]; exact h.txp
  · rw [hr]; exact h.rxp
  · exact hq
  · rw [ha]; exact h.sent
  · rw [ha]; exact h.del

theorem LInv.emit {g : Prop} {e : Ep} (h : LInv g e) {a : Act} (hs : ∀ pkt, a = .sent pkt → 6 ≤ pkt.length ∧ pkt.length ≤ 268)
    (hd : ∀ c n p, a = .delivered c n p → 1 ≤ p.length ∧ p.length ≤ 256) : LInv g (e.emit a) := by
  refine ⟨h.tx, ?_, h.rx, h.txp, h.rxp, h.queue, ?_, ?_⟩
  · intro c hc
    obtain ⟨l, hl⟩ := h.que c hc
    refine ⟨l, hl.mono ?_⟩
    intro hn hg
    apply hn
    rcases hg with hg | hg
    · exact Or.inl hg
    · exact Or.inr (List.mem_append_left _ hg)
  · intro pkt hp
    rcases List.mem_append.mp hp with hp | hp
    · exact h.sent pkt hp
    · exact hs pkt (List.mem_singleton.mp hp).symm
  · intro c n p hp
    rcases List.mem_append.mp hp with hp | hp
    · exact h.del c n p hp
    · exact hd c n p (List.mem_singleton.mp hp).symm

theorem LInv.status {g : Prop} {e : Ep} (h : LInv g e) (n : Nat) : LInv g (e.emit (.status n)) :=
  h.emit (by intro pkt hp; cases hp) (by intro c n p hp; cases hp)

theorem LInv.setTx {g : Prop} {e : Ep} (h : LInv g e) (c : Nat) {s : TxChan} (hs : Rel c → TOk c s)
    (hq : Rel c → ∃ l, Que s (¬ (g ∨ .status 1 ∈ e.acts)) l) (hp : s.maxPayload ≤ 256) : LInv g (e.setTx c s) := by
  refine ⟨?_, ?_, h.rx, ?_, h.rxp, h.queue, h.sent, h.del⟩
  · intro d hd
    by_cases hdc : d = c
    · subst hdc; show TOk d (upd e.tx d s d); rw [upd_eq]; exact hs hd
    · show TOk d (upd e.tx c s d); rw [upd_ne _ _ hdc]; exact h.tx d hd
  · intro d hd
    by_cases hdc : d = c
    · subst hdc; show ∃ l, Que (upd e.tx d s d) _ l; rw [upd_eq]; exact hq hd
    · show ∃ l, Que (upd e.tx c s d) _ l; rw [upd_ne _ _ hdc]; exact h.que d hd
  · intro d
    by_cases hdc : d = c
    · subst hdc; show (upd e.tx d s d).maxPayload ≤ 256; rw [upd_eq]; exact hp
    · show (upd e.tx c s d).maxPayload ≤ 256; rw [upd_ne _ _ hdc]; exact h.txp d

theorem LInv.setRx {g : Prop} {e : Ep} (h : LInv g e) (c : Nat) {r : RxChan} (hs : Rel c → ROk c r)
    (hp : r.maxPayload ≤ 256) : LInv g (e.setRx c r) := by
  refine ⟨h.tx, h.que, ?_, h.txp, ?_, h.queue, h.sent, h.del⟩
  · intro d hd
    by_cases hdc : d = c
    · subst hdc; show ROk d (upd e.rx d r d); rw [upd_eq]; exact hs hd
    · show ROk d (upd e.rx c r d); rw [upd_ne _ _ hdc]; exact h.rx d hd
  · intro d
    by_cases hdc : d = c
    · subst hdc; show (upd e.rx d r d).maxPayload ≤ 256; rw [upd_eq]; exact hp
    · show (upd e.rx c r d).maxPayload ≤ 256; rw [upd_ne _ _ hdc]; exact h.rxp d

theorem LInv.buildSend {g : Prop} {e : Ep} (h : LInv g e) (c seq : Nat) {p : List Nat} (hp : p.length ≤ 256) :
    LInv g (buildSend e c seq p) := by
  have h1 : LInv g (e.emit (.sent (packet e c seq p))) := by
    refine h.emit ?_ (by intro c n p hp; cases hp)
    intro pkt hpk
    cases hpk
    have := flat_length e.ackQueue
    have := h.queue
    unfold packet
    simp [be16] at *
    omega
  refine h1.congr (buildSend_tx _ _ _ _) (buildSend_rx _ _ _ _) ?_ (buildSend_acts _ _ _ _)
  rw [buildSend_q]; decide

theorem LInv.queueAck {g : Prop} {e : Ep} (h : LInv g e) (c seq now : Nat) : LInv g (queueAck e c seq now) := by
  unfold Sprt.queueAck
  have h1 : LInv g (if e.ackQueue.length ≥ 3 then Sprt.buildSend e c 0 [] else e)
      ∧ (if e.ackQueue.length ≥ 3 then Sprt.buildSend e c 0 [] else e).ackQueue.length ≤ 2 := by
    split
    · exact ⟨h.buildSend c 0 (by decide), by rw [buildSend_q]; decide⟩
    · next hn => exact ⟨h, by omega⟩
  generalize (if e.ackQueue.length ≥ 3 then Sprt.buildSend e c 0 [] else e) = e1 at h1
  obtain ⟨h1, h2⟩ := h1
  unfold Sprt.queueAckEntry
  split
  · exact h1
  · have h3 : LInv g { e1 with ackQueue := e1.ackQueue ++ [c * 16384 + seq] } :=
      h1.congr rfl rfl (by simp; omega) rfl
    simp only
    split
    · refine h3.congr (updateTimer_tx _) (updateTimer_rx _) ?_ (updateTimer_acts _)
      rw [updateTimer_q]; exact h3.queue
    · split
      · exact h3.buildSend c 0 (by decide)
      · exact h3

/-! ## The sender's channels -/

theorem Snd.same {s s' : TxChan} {L : List (List Nat)} {O : Nat} (k : Snd s L O) (hs : SameTx s s') : Snd s' L O := by
  obtain ⟨h1, h2, h3, h4, h5⟩ := hs
  exact ⟨by rw [h1]; exact k.w, by rw [h3]; exact k.seq, by rw [h4, h1]; exact k.inp, by rw [h5, h1]; exact k.outp,
    k.le, by rw [h1]; exact k.room, by rw [h1, h2]; exact k.slot, by rw [h1, h2]; exact k.free, by rw [h1, h2]; exact k.front⟩

/-- A sender's channel, with a receiver which has everything. -/
theorem Snd.fake {s : TxChan} {L : List (List Nat)} {O : Nat} (k : Snd s L O) :
    ∃ r G, Dir s r L G ∧ ∀ a, a < L.length → Received r G.length a := by
  refine ⟨⟨0, 2, L.length % 16384, L.length % 2, fun _ => none, false⟩, (List.range L.length).map fun i => (i % 16384, L[i]?.getD []), ?_, ?_⟩
  · refine ⟨by simp, ⟨by simp, by simp, by simp, by simp, by intro d _ p hp; cases hp⟩, O, k, ?_⟩
    intro a ha _
    exact Or.inl (by simpa using ha)
  · intro a ha
    exact Or.inl (by simpa using ha)

theorem sum_tries {l : List Nat} {f : Nat → Nat} {i v : Nat} (h : i ∉ l) : (l.map (upd f i v)).sum = (l.map f).sum := by
  congr 1
  apply List.map_congr_left
  intro j hj
  exact upd_ne _ _ (fun e => h (e ▸ hj))

/-- A slot which was sent again goes to the end of the queue, or is given up. -/
theorem LInv.requeue {g : Prop} {e : Ep} (h : LInv g e) {c i : Nat} (hc : Rel c) {l : List Nat}
    (hq : Que (e.tx c) (¬ (g ∨ .status 1 ∈ e.acts)) (i :: l)) :
    ∃ e', requeue e c i = some e' ∧ LInv g e' ∧ ∃ l', Que (e'.tx c) (¬ (g ∨ .status 1 ∈ e'.acts)) l'
      ∧ (l'.map (e'.tx c).tries).sum < ((i :: l).map (e.tx c).tries).sum := by
  have hcap := hc.cap
  have hT := h.tx c hc
  have hwin := hT.win
  have h96 : ∀ j ∈ i :: l, j < 96 := fun j hj => by have := (hq.mem j hj).1; omega
  obtain ⟨s1, hd, hl1⟩ := delTimer_ok (u := []) (v := l) hq.lst h96 hq.nodup
  obtain ⟨fi, la, pr, ne, rfl⟩ := delTimer_frame hd
  obtain ⟨hiw, his, ht1, ht2⟩ := hq.mem i List.mem_cons_self
  have hnd := List.nodup_cons.mp hq.nodup
  have hne : ∀ j ∈ l, j ≠ i := fun j hj e => hnd.1 (e ▸ hj)
  have hlm : ∀ j ∈ l, j < (e.tx c).window ∧ ((e.tx c).buf j).isSome ∧ 1 ≤ (e.tx c).tries j ∧ (e.tx c).tries j ≤ 20 :=
    fun j hj => hq.mem j (List.mem_cons_of_mem _ hj)
  unfold Sprt.requeue
  rw [hd, Option.bind_some]
  simp only
  have htr : ((e.tx c).tries i + 255) % 256 = (e.tx c).tries i - 1 := by omega
  rw [htr]
  obtain ⟨L, O, hs⟩ := hT.snd
  split
  · next h0 =>
    refine ⟨_, rfl, ?_⟩
    have hQ : ∀ f : Prop, Que { e.tx c with first := fi, last := la, prev := pr, next := ne, tries := upd (e.tx c).tries i ((e.tx c).tries i - 1) } (¬ (f ∨ True)) l := by
      intro f
      refine ⟨⟨hl1.first, hl1.last, hl1.links, hl1.out⟩, hnd.2, ?_, fun hf => absurd (Or.inr trivial) hf⟩
      intro j hj
      obtain ⟨k1, k2, k3, k4⟩ := hlm j hj
      refine ⟨k1, k2, ?_⟩
      show 1 ≤ upd _ _ _ j ∧ upd _ _ _ j ≤ 20
      rw [upd_ne _ _ (hne j hj)]; exact ⟨k3, k4⟩
    have hst : ∀ x : Act, x ∈ [x] := fun x => List.mem_singleton_self x
    have hin : Act.status 1 ∈ ((e.setTx c { e.tx c with first := fi, last := la, prev := pr, next := ne, tries := upd (e.tx c).tries i ((e.tx c).tries i - 1) }).emit (.status 1)).acts :=
      List.mem_append_right _ (hst _)
    have htx : ((e.setTx c { e.tx c with first := fi, last := la, prev := pr, next := ne, tries := upd (e.tx c).tries i ((e.tx c).tries i - 1) }).emit (.status 1)).tx c
        = { e.tx c with first := fi, last := la, prev := pr, next := ne, tries := upd (e.tx c).tries i ((e.tx c).tries i - 1) } := upd_eq _ _ _
    have hq2 : Que (((e.setTx c { e.tx c with first := fi, last := la, prev := pr, next := ne, tries := upd (e.tx c).tries i ((e.tx c).tries i - 1) }).emit (.status 1)).tx c)
        (¬ (g ∨ Act.status 1 ∈ ((e.setTx c { e.tx c with first := fi, last := la, prev := pr, next := ne, tries := upd (e.tx c).tries i ((e.tx c).tries i - 1) }).emit (.status 1)).acts)) l := by
      rw [htx]
      exact (hQ False).mono (fun hn _ => hn (Or.inr hin))
    refine ⟨?_, l, hq2, ?_⟩
    · refine ⟨?_, ?_, h.rx, ?_, h.rxp, h.queue, ?_, ?_⟩
      · intro d hd'
        by_cases hdc : d = c
        · subst hdc
          rw [htx]
          exact ⟨hwin, ⟨L, O, hs.same ⟨rfl, rfl, rfl, rfl, rfl⟩⟩, hT.tri, hT.size⟩
        · show TOk d (upd e.tx c _ d); rw [upd_ne _ _ hdc]; exact h.tx d hd'
      · intro d hd'
        by_cases hdc : d = c
        · subst hdc; exact ⟨l, hq2⟩
        · obtain ⟨m, hm⟩ := h.que d hd'
          refine ⟨m, ?_⟩
          show Que (upd e.tx c _ d) _ m
          rw [upd_ne _ _ hdc]
          exact hm.mono (fun hn _ => hn (Or.inr hin))
      · intro d
        by_cases hdc : d = c
        · subst hdc; rw [htx]; exact h.txp d
        · show (upd e.tx c _ d).maxPayload ≤ 256; rw [upd_ne _ _ hdc]; exact h.txp d
      · intro pkt hp
        rcases List.mem_append.mp hp with hp | hp
        · exact h.sent pkt hp
        · cases List.mem_singleton.mp hp
      · intro c n p hp
        rcases List.mem_append.mp hp with hp | hp
        · exact h.del c n p hp
        · cases List.mem_singleton.mp hp
    · rw [htx]
      simp only [List.map_cons, List.sum_cons]
      rw [sum_tries hnd.1]
      omega
  · next h0 =>
    obtain ⟨s2, ha, hl2⟩ := addTimer_ok (s := { e.tx c with first := fi, last := la, prev := pr, next := ne, tries := upd (e.tx c).tries i ((e.tx c).tries i - 1), timer := upd (e.tx c).timer i ((e.tx c).timer i + (e.tx c).tr03Timeout) })
      ⟨hl1.first, hl1.last, hl1.links, hl1.out⟩ (fun j hj => h96 j (List.mem_cons_of_mem _ hj)) hnd.2 (h96 i List.mem_cons_self) hnd.1
    rw [ha, Option.bind_some]
    refine ⟨_, rfl, ?_⟩
    obtain ⟨fi2, la2, pr2, ne2, rfl⟩ := addTimer_frame ha
    have hq2 : Que { e.tx c with first := fi2, last := la2, prev := pr2, next := ne2, tries := upd (e.tx c).tries i ((e.tx c).tries i - 1), timer := upd (e.tx c).timer i ((e.tx c).timer i + (e.tx c).tr03Timeout) }
        (¬ (g ∨ .status 1 ∈ e.acts)) (l ++ [i]) := by
      refine ⟨hl2, ?_, ?_, ?_⟩
      · rw [List.nodup_append]
        exact ⟨hnd.2, by simp, by intro a ha b hb; rw [List.mem_singleton.mp hb]; exact hne a ha⟩
      · intro j hj
        rcases List.mem_append.mp hj with hj | hj
        · obtain ⟨k1, k2, k3, k4⟩ := hlm j hj
          refine ⟨k1, k2, ?_⟩
          show 1 ≤ upd _ _ _ j ∧ upd _ _ _ j ≤ 20
          rw [upd_ne _ _ (hne j hj)]; exact ⟨k3, k4⟩
        · rw [List.mem_singleton.mp hj]
          refine ⟨hiw, his, ?_⟩
          show 1 ≤ upd _ _ _ i ∧ upd _ _ _ i ≤ 20
          rw [upd_eq]; omega
      · intro hf j hj
        have := hq.all hf j hj
        simp at this ⊢
        rcases this with h | h
        · exact Or.inr h
        · exact Or.inl h
    refine ⟨h.setTx c (fun _ => ⟨hwin, ⟨L, O, hs.same ⟨rfl, rfl, rfl, rfl, rfl⟩⟩, hT.tri, hT.size⟩) (fun _ => ⟨_, hq2⟩) (h.txp c), l ++ [i], ?_, ?_⟩
    · show Que (upd e.tx c _ c) _ _
      rw [upd_eq]
      exact hq2
    · show ((l ++ [i]).map (upd e.tx c _ c).tries).sum < _
      rw [upd_eq]
      simp only [List.map_append, List.map_cons, List.map_nil, List.sum_append, List.sum_cons, List.sum_nil]
      rw [sum_tries hnd.1, upd_eq]
      omega

theorem LInv.retransmit {g : Prop} {c now : Nat} (hc : Rel c) : ∀ n (e : Ep) sent l, LInv g e →
    Que (e.tx c) (¬ (g ∨ .status 1 ∈ e.acts)) l → (l.map (e.tx c).tries).sum < n →
    ∃ r, retransmit c now n e sent = some r ∧ LInv g r.1 := by
  intro n
  induction n with
  | zero => intro e sent l _ _ h; omega
  | succ n ih =>
    intro e sent l h hq hn
    unfold Sprt.retransmit
    simp only
    have hf := hq.lst.first
    rcases l with _ | ⟨i, l⟩
    · have hf : (e.tx c).first = 255 := hf
      rw [if_pos hf]; exact ⟨_, rfl, h⟩
    · have hf : (e.tx c).first = i := hf
      have hcap := hc.cap
      have hw := (h.tx c hc).win
      obtain ⟨hiw, his, -, -⟩ := hq.mem i List.mem_cons_self
      rw [hf, if_neg (by omega), if_pos (by omega)]
      split
      · obtain ⟨p, hp⟩ := Option.isSome_iff_exists.mp his
        rw [hp]
        simp only
        have h1 : LInv g (Sprt.buildSend e c (Sprt.slotSeq (e.tx c) i) p) := h.buildSend c _ ((h.tx c hc).size i p hp)
        have hq1 : Que ((Sprt.buildSend e c (Sprt.slotSeq (e.tx c) i) p).tx c)
            (¬ (g ∨ .status 1 ∈ (Sprt.buildSend e c (Sprt.slotSeq (e.tx c) i) p).acts)) (i :: l) := by
          rw [buildSend_tx, buildSend_acts]
          refine hq.mono ?_
          intro hn hg
          apply hn
          rcases hg with hg | hg
          · exact Or.inl hg
          · exact Or.inr (List.mem_append_left _ hg)
        obtain ⟨e2, hr, h2, l2, hq2, hlt⟩ := h1.requeue hc hq1
        rw [hr, Option.bind_some]
        rw [buildSend_tx] at hlt
        exact ih e2 true l2 h2 hq2 (by omega)
      · exact ⟨_, rfl, h⟩

theorem sum_le {f : Nat → Nat} {b : Nat} : ∀ {l : List Nat}, (∀ i ∈ l, f i ≤ b) → (l.map f).sum ≤ b * l.length
  | [], _ => by simp
  | i :: l, h => by
    have h1 := h i List.mem_cons_self
    have h2 := sum_le (l := l) fun j hj => h j (List.mem_cons_of_mem _ hj)
    simp only [List.map_cons, List.sum_cons, List.length_cons, Nat.mul_add]
    omega

theorem nodup_length {l : List Nat} {n : Nat} (h : l.Nodup) (hl : ∀ i ∈ l, i < n) : l.length ≤ n := by
  have : l ⊆ List.range n := fun i hi => List.mem_range.mpr (hl i hi)
  have := (List.subperm_of_subset h this).length_le
  simpa using this

theorem LInv.retransmit_ok {g : Prop} {c now : Nat} (hc : Rel c) {e : Ep} (h : LInv g e) (sent : Bool) :
    ∃ r, Sprt.retransmit c now 30000 e sent = some r ∧ LInv g r.1 := by
  obtain ⟨l, hq⟩ := h.que c hc
  refine LInv.retransmit hc _ _ _ l h hq ?_
  have h1 := sum_le (l := l) (f := (e.tx c).tries) (b := 20) (fun i hi => (hq.mem i hi).2.2.2)
  have h2 := nodup_length hq.nodup (fun i hi => (hq.mem i hi).1)
  have := (h.tx c hc).win
  have := hc.cap
  omega

theorem LInv.timerChan {g : Prop} {c now : Nat} (hc : Rel c) {e : Ep} (h : LInv g e) :
    ∃ r, Sprt.timerChan e c now = some r ∧ LInv g r.1 := by
  unfold Sprt.timerChan
  obtain ⟨r, hr, h1⟩ := h.retransmit_ok (now := now) hc false
  rw [hr, Option.bind_some]
  simp only
  split
  · have h2 : LInv g (if (decide ((r.1.tx c).ta02Timer ≤ now) && !r.2) = true then Sprt.buildSend r.1 c 0 [] else r.1) := by
      split
      · exact h1.buildSend c 0 (by decide)
      · exact h1
    generalize (if (decide ((r.1.tx c).ta02Timer ≤ now) && !r.2) = true then Sprt.buildSend r.1 c 0 [] else r.1) = e2 at h2
    split
    · refine ⟨_, rfl, ?_⟩
      obtain ⟨L, O, hs⟩ := (h2.tx c hc).snd
      obtain ⟨l, hq⟩ := h2.que c hc
      exact h2.setTx c (fun _ => ⟨(h2.tx c hc).win, ⟨L, O, hs.same ⟨rfl, rfl, rfl, rfl, rfl⟩⟩, (h2.tx c hc).tri, (h2.tx c hc).size⟩)
        (fun _ => ⟨l, ⟨hq.lst.first, hq.lst.last, hq.lst.links, hq.lst.out⟩, hq.nodup, hq.mem, hq.all⟩) (h2.txp c)
    · exact ⟨_, rfl, h2⟩
  · exact ⟨_, rfl, h1⟩

/-- What comes of something: it goes well, or else something was given up before. -/
def Well {α : Type} (bad : Prop) (o : Option α) (good : α → Prop) : Prop := (bad ∧ o = none) ∨ ∃ r, o = some r ∧ good r

/-- A slot is acknowledged, and the queue of timers is `l` then. -/
theorem LInv.ackSlot {g : Prop} {e : Ep} (h : LInv g e) {c slot : Nat} (hc : Rel c) {L : List (List Nat)} {O : Nat} (hs : Snd (e.tx c) L O)
    (hslot : slot < (e.tx c).window) (hsome : ((e.tx c).buf slot).isSome) {fi la : Nat} {pr ne : Nat → Nat} {l : List Nat}
    (hl : Lst { e.tx c with buf := upd (e.tx c).buf slot none, timer := upd (e.tx c).timer slot 0, first := fi, last := la, prev := pr, next := ne } l)
    (hnd : l.Nodup)
    (hm : ∀ j ∈ l, j ≠ slot ∧ j < (e.tx c).window ∧ ((e.tx c).buf j).isSome ∧ 1 ≤ (e.tx c).tries j ∧ (e.tx c).tries j ≤ 20)
    (hall : ¬ (g ∨ .status 1 ∈ e.acts) → ∀ j, ((e.tx c).buf j).isSome → j ≠ slot → j ∈ l) :
    LInv g (e.setTx c (if slot = (e.tx c).outPtr then
      { e.tx c with buf := upd (e.tx c).buf slot none, timer := upd (e.tx c).timer slot 0, first := fi, last := la, prev := pr, next := ne, outPtr := advance { e.tx c with buf := upd (e.tx c).buf slot none, timer := upd (e.tx c).timer slot 0, first := fi, last := la, prev := pr, next := ne } (e.tx c).window slot }
      else { e.tx c with buf := upd (e.tx c).buf slot none, timer := upd (e.tx c).timer slot 0, first := fi, last := la, prev := pr, next := ne })) := by
  have hT := h.tx c hc
  have hwin := hT.win
  obtain ⟨p, hp⟩ := Option.isSome_iff_exists.mp hsome
  obtain ⟨a, ha1, ha2, ha3⟩ := hs.free slot p hp
  have hroom := hs.room
  obtain ⟨r, G, hdir, hrec⟩ := hs.fake
  have hback : ∀ i q, upd (e.tx c).buf slot none i = some q → i ≠ slot ∧ (e.tx c).buf i = some q := by
    intro i q hiq
    by_cases his : i = slot
    · subst his; rw [upd_eq] at hiq; cases hiq
    · rw [upd_ne _ _ his] at hiq; exact ⟨his, hiq⟩
  refine h.setTx c (fun _ => ⟨?_, ?_, ?_, ?_⟩) (fun _ => ⟨l, ?_, hnd, ?_, ?_⟩) ?_
  · split <;> exact hwin
  · have hd2 := hdir.ack (a := a) (hrec a ha2) (by omega) (by rw [ha3]; exact hsome)
      (if slot = (e.tx c).outPtr then
        { e.tx c with buf := upd (e.tx c).buf slot none, timer := upd (e.tx c).timer slot 0, first := fi, last := la, prev := pr, next := ne, outPtr := advance { e.tx c with buf := upd (e.tx c).buf slot none, timer := upd (e.tx c).timer slot 0, first := fi, last := la, prev := pr, next := ne } (e.tx c).window slot }
        else { e.tx c with buf := upd (e.tx c).buf slot none, timer := upd (e.tx c).timer slot 0, first := fi, last := la, prev := pr, next := ne })
      (by split <;> rfl) (by rw [ha3]; split <;> rfl) (by split <;> rfl) (by split <;> rfl)
      (by
        rw [ha3]
        split
        · refine advance_congr (s := _) (s' := _) ?_ ?_ ?_ _ _ <;> rfl
        · rfl)
    obtain ⟨O', k, -⟩ := hd2.snd
    exact ⟨L, O', k⟩
  · split <;> exact hT.tri
  · intro i q hiq
    have : upd (e.tx c).buf slot none i = some q := by revert hiq; split <;> exact id
    exact hT.size i q (hback i q this).2
  · split
    · exact ⟨hl.first, hl.last, hl.links, hl.out⟩
    · exact hl
  · intro j hj
    have := hm j hj
    have hb : upd (e.tx c).buf slot none j = (e.tx c).buf j := upd_ne _ _ this.1
    split
    · refine ⟨this.2.1, ?_, this.2.2.2⟩
      show (upd (e.tx c).buf slot none j).isSome = true
      rw [hb]; exact this.2.2.1
    · refine ⟨this.2.1, ?_, this.2.2.2⟩
      show (upd (e.tx c).buf slot none j).isSome = true
      rw [hb]; exact this.2.2.1
  · intro hf j hj
    have hj' : (upd (e.tx c).buf slot none j).isSome = true := by revert hj; split <;> exact id
    obtain ⟨q, hjq⟩ := Option.isSome_iff_exists.mp hj'
    obtain ⟨k1, k2⟩ := hback j q hjq
    exact hall hf j (by rw [k2]; rfl) k1
  · split <;> exact h.txp c

/-- Any acknowledgement. -/
theorem LInv.processAck {g : Prop} {e : Ep} (h : LInv g e) (c sqn : Nat) :
    Well (g ∨ .status 1 ∈ e.acts) (Sprt.processAck e c sqn) (fun e' => LInv g e' ∧ e'.acts = e.acts) := by
  unfold Sprt.processAck
  split
  · next hc =>
    have hc : Rel c := hc
    have hT := h.tx c hc
    have hwin := hT.win
    have hcap := hc.cap
    obtain ⟨L, O, hs⟩ := hT.snd
    obtain ⟨l, hq⟩ := h.que c hc
    have hinw : (e.tx c).inPtr < (e.tx c).window := by rw [hs.inp]; exact Nat.mod_lt _ (by omega)
    simp only
    generalize ((e.tx c).queueSeq + 16384 - sqn) % 16384 = diff
    split
    · next hd =>
      have hslot : (if (e.tx c).inPtr < diff then (e.tx c).inPtr + (e.tx c).window - diff else (e.tx c).inPtr - diff) < (e.tx c).window := by
        split <;> omega
      generalize hsl : (if (e.tx c).inPtr < diff then (e.tx c).inPtr + (e.tx c).window - diff else (e.tx c).inPtr - diff) = slot at hslot
      rw [if_pos (by omega)]
      split
      · next hsome =>
        by_cases hmem : slot ∈ l
        case neg =>
          have hgone : g ∨ .status 1 ∈ e.acts := Classical.byContradiction fun hg => hmem (hq.all hg slot hsome)
          by_cases hfe : (e.tx c).first = 255
          · refine Or.inr ?_
            have hdl : delTimer { e.tx c with buf := upd (e.tx c).buf slot none, timer := upd (e.tx c).timer slot 0 } slot
                = some { e.tx c with buf := upd (e.tx c).buf slot none, timer := upd (e.tx c).timer slot 0 } := by
              unfold delTimer
              rw [if_pos (Or.inl hfe)]
            rw [hdl, Option.bind_some]
            refine ⟨_, rfl, ?_, rfl⟩
            exact h.ackSlot hc hs hslot hsome (l := l) ⟨hq.lst.first, hq.lst.last, hq.lst.links, hq.lst.out⟩ hq.nodup
              (fun j hj => ⟨fun e => hmem (e ▸ hj), hq.mem j hj⟩) (fun hf => absurd hgone hf)
          · refine Or.inl ⟨hgone, ?_⟩
            have hnf : (e.tx c).first ≠ slot := by
              intro hfs
              apply hmem
              rw [← hfs]
              rw [hq.lst.first] at hfe ⊢
              cases l with
              | nil => exact absurd rfl hfe
              | cons j l => exact List.mem_cons_self
            have hpv := hq.lst.out slot hmem
            unfold delTimer
            simp only
            rw [if_neg (by omega), if_pos (by omega), if_neg hnf, hpv, if_neg (by decide)]
            rfl
        refine Or.inr ?_
        obtain ⟨u, v, rfl⟩ := List.append_of_mem hmem
        have h96 : ∀ j ∈ u ++ slot :: v, j < 96 := fun j hj => by have := (hq.mem j hj).1; omega
        obtain ⟨s1, hdl, hl1⟩ := delTimer_ok (s := { e.tx c with buf := upd (e.tx c).buf slot none, timer := upd (e.tx c).timer slot 0 })
          (u := u) (v := v) (i := slot) ⟨hq.lst.first, hq.lst.last, hq.lst.links, hq.lst.out⟩ h96 hq.nodup
        rw [hdl, Option.bind_some]
        refine ⟨_, rfl, ?_, rfl⟩
        obtain ⟨fi, la, pr, ne, rfl⟩ := delTimer_frame hdl
        have hnd := List.nodup_append.mp hq.nodup
        have hnv := List.nodup_cons.mp hnd.2.1
        refine h.ackSlot hc hs hslot hsome (l := u ++ v) hl1 ?_ ?_ ?_
        · rw [List.nodup_append]
          exact ⟨hnd.1, hnv.2, fun a ha b hb => hnd.2.2 a ha b (List.mem_cons_of_mem _ hb)⟩
        · intro j hj
          refine ⟨?_, ?_⟩
          · intro e
            subst e
            rcases List.mem_append.mp hj with hj | hj
            · exact hnd.2.2 j hj j List.mem_cons_self rfl
            · exact hnv.1 hj
          · apply hq.mem j
            rcases List.mem_append.mp hj with hj | hj <;> simp [hj]
        · intro hf j hj hjs
          have := hq.all hf j hj
          simp at this ⊢
          rcases this with h | h | h
          · exact Or.inl h
          · exact absurd h hjs
          · exact Or.inr h
      · exact Or.inr ⟨_, rfl, h, rfl⟩
    · exact Or.inr ⟨_, rfl, h, rfl⟩
  · exact Or.inr ⟨_, rfl, h, rfl⟩

theorem LInv.processAcks {g : Prop} : ∀ (l : List Nat) {e : Ep}, LInv g e →
    Well (g ∨ .status 1 ∈ e.acts) (Sprt.processAcks e l) (fun e' => LInv g e')
  | [], e, h => Or.inr ⟨e, rfl, h⟩
  | a :: l, e, h => by
    unfold Sprt.processAcks
    rcases h.processAck (a / 16384 % 4) (a % 16384) with ⟨hb, he⟩ | ⟨e1, he, h1, ha⟩
    · rw [he]; exact Or.inl ⟨hb, rfl⟩
    · rw [he, Option.bind_some]
      rw [← ha]
      exact LInv.processAcks l h1

theorem LInv.tx' {g : Prop} {e : Ep} (h : LInv g e) (c : Nat) (p : List Nat) (now : Nat) :
    ∃ r, Sprt.tx e c p now = some r ∧ LInv g r.1 := by
  have hacc : ∀ {e : Ep} (c p), LInv g e → LInv g (e.emit (.accepted c p)) := by
    intro e c p h
    exact h.emit (by intro pkt hp; cases hp) (by intro c n p hp; cases hp)
  unfold Sprt.tx
  split
  · exact ⟨_, rfl, h⟩
  · split
    · exact ⟨_, rfl, h⟩
    · next hlen =>
      have hp256 : p.length ≤ 256 := by have := h.txp c; omega
      split
      · next hc =>
        have hc : Rel c := hc
        have hT := h.tx c hc
        have hwin := hT.win
        have hcap := hc.cap
        obtain ⟨L, O, hs⟩ := hT.snd
        obtain ⟨l, hq⟩ := h.que c hc
        have hinw : (e.tx c).inPtr < (e.tx c).window := by rw [hs.inp]; exact Nat.mod_lt _ (by omega)
        unfold Sprt.txReliable
        simp only
        by_cases hroom : (if (e.tx c).outPtr < (e.tx c).inPtr + 1 then (e.tx c).outPtr + (e.tx c).window - ((e.tx c).inPtr + 1) else (e.tx c).outPtr - ((e.tx c).inPtr + 1)) < 1
        · rw [if_pos hroom]; exact ⟨_, rfl, h⟩
        · rw [if_neg hroom, if_pos (by omega)]
          have hfree : (e.tx c).buf (e.tx c).inPtr = none := by
            rcases hb : (e.tx c).buf (e.tx c).inPtr with _ | q
            · rfl
            · obtain ⟨a, h1, h2, h3⟩ := hs.free _ _ hb
              have hr := hs.room
              have := mod_inj (h3.trans hs.inp) (by omega) (by omega)
              omega
          have hnl : (e.tx c).inPtr ∉ l := by
            intro hm
            have := (hq.mem _ hm).2.1
            rw [hfree] at this; cases this
          obtain ⟨s1, had, hl1⟩ := addTimer_ok
            (s := { e.tx c with buf := upd (e.tx c).buf (e.tx c).inPtr (some p), queueSeq := ((e.tx c).queueSeq + 1) % 16384, timer := upd (e.tx c).timer (e.tx c).inPtr (now + (e.tx c).tr03Timeout), tries := upd (e.tx c).tries (e.tx c).inPtr (e.tx c).maxTries })
            (l := l) ⟨hq.lst.first, hq.lst.last, hq.lst.links, hq.lst.out⟩ (fun j hj => by have := (hq.mem j hj).1; omega) hq.nodup
            (show (e.tx c).inPtr < 96 by omega) hnl
          rw [had, Option.bind_some]
          refine ⟨_, rfl, ?_⟩
          obtain ⟨fi, la, pr, ne, rfl⟩ := addTimer_frame had
          refine LInv.buildSend (hacc c p ?_) c _ hp256
          obtain ⟨r, G, hdir, -⟩ := hs.fake
          refine h.setTx c (fun _ => ⟨hwin, ?_, hT.tri, ?_⟩) (fun _ => ⟨l ++ [(e.tx c).inPtr], ⟨hl1.first, hl1.last, hl1.links, hl1.out⟩, ?_, ?_, ?_⟩) (h.txp c)
          · have hd2 := hdir.accept p (by omega)
              { e.tx c with buf := upd (e.tx c).buf (e.tx c).inPtr (some p), queueSeq := ((e.tx c).queueSeq + 1) % 16384, timer := upd (e.tx c).timer (e.tx c).inPtr (now + (e.tx c).tr03Timeout), tries := upd (e.tx c).tries (e.tx c).inPtr (e.tx c).maxTries, first := fi, last := la, prev := pr, next := ne, inPtr := if (e.tx c).inPtr + 1 ≥ (e.tx c).window then 0 else (e.tx c).inPtr + 1, ta02Timer := now + (e.tx c).ta02Timeout }
              rfl rfl rfl rfl rfl
            obtain ⟨O', k, -⟩ := hd2.snd
            exact ⟨_, O', k⟩
          · intro i q hiq
            by_cases his : i = (e.tx c).inPtr
            · subst his
              have : upd (e.tx c).buf (e.tx c).inPtr (some p) (e.tx c).inPtr = some q := hiq
              rw [upd_eq] at this
              cases this; exact hp256
            · have : upd (e.tx c).buf (e.tx c).inPtr (some p) i = some q := hiq
              rw [upd_ne _ _ his] at this
              exact hT.size i q this
          · rw [List.nodup_append]
            exact ⟨hq.nodup, by simp, by intro a ha b hb e'; rw [List.mem_singleton.mp hb] at e'; exact hnl (e' ▸ ha)⟩
          · intro j hj
            by_cases hji : j = (e.tx c).inPtr
            · subst hji
              refine ⟨hinw, ?_, ?_⟩
              · show (upd (e.tx c).buf (e.tx c).inPtr (some p) (e.tx c).inPtr).isSome = true
                rw [upd_eq]; rfl
              · show 1 ≤ upd (e.tx c).tries (e.tx c).inPtr (e.tx c).maxTries (e.tx c).inPtr ∧ upd (e.tx c).tries (e.tx c).inPtr (e.tx c).maxTries (e.tx c).inPtr ≤ 20
                rw [upd_eq]; exact hT.tri
            · have hm : j ∈ l := by
                rcases List.mem_append.mp hj with h | h
                · exact h
                · exact absurd (List.mem_singleton.mp h) hji
              obtain ⟨k1, k2, k3⟩ := hq.mem j hm
              refine ⟨k1, ?_, ?_⟩
              · show (upd (e.tx c).buf (e.tx c).inPtr (some p) j).isSome = true
                rw [upd_ne _ _ hji]; exact k2
              · show 1 ≤ upd (e.tx c).tries (e.tx c).inPtr (e.tx c).maxTries j ∧ upd (e.tx c).tries (e.tx c).inPtr (e.tx c).maxTries j ≤ 20
                rw [upd_ne _ _ hji]; exact k3
          · intro hf j hj
            by_cases hji : j = (e.tx c).inPtr
            · simp [hji]
            · have : (upd (e.tx c).buf (e.tx c).inPtr (some p) j).isSome = true := hj
              rw [upd_ne _ _ hji] at this
              exact List.mem_append_left _ (hq.all hf j this)
      · next hc =>
        split
        · exact ⟨_, rfl, (hacc c p h).buildSend c 0 hp256⟩
        · have h1 := (hacc c p h).buildSend c (e.tx c).queueSeq hp256
          exact ⟨_, rfl, h1.setTx c (fun hr => absurd hr hc) (fun hr => absurd hr hc) (h1.txp c)⟩

/-! ## The receiver's channels -/

/-- How many slots of the first `n` are in use. -/
def used (f : Nat → Option (List Nat)) : Nat → Nat
  | 0 => 0
  | n + 1 => used f n + if (f n).isSome then 1 else 0

theorem used_le (f : Nat → Option (List Nat)) : ∀ n, used f n ≤ n
  | 0 => Nat.le_refl _
  | n + 1 => by have := used_le f n; unfold used; split <;> omega

theorem used_congr {f f' : Nat → Option (List Nat)} : ∀ {n}, (∀ i, i < n → f' i = f i) → used f' n = used f n
  | 0, _ => rfl
  | n + 1, h => by
    unfold used
    rw [used_congr fun i hi => h i (by omega), h n (by omega)]

theorem used_lt {f : Nat → Option (List Nat)} {i : Nat} (hs : (f i).isSome) : ∀ {n}, i < n → used (upd f i none) n < used f n
  | 0, h => by omega
  | n + 1, h => by
    unfold used
    by_cases hi : i = n
    · subst hi
      rw [used_congr fun j hj => upd_ne f none (by omega), upd_eq, if_pos hs]
      simp
    · have := used_lt hs (n := n) (by omega)
      rw [upd_ne f none (show n ≠ i by omega)]
      omega

theorem next_lt {i w : Nat} (h : i < w) : (if i + 1 ≥ w then 0 else i + 1) < w := by split <;> omega

theorem LInv.deliverLoop {g : Prop} {c : Nat} (hc : Rel c) : ∀ n (e : Ep) i app, LInv g e → i < (e.rx c).window →
    used (e.rx c).buf (e.rx c).window < n →
    ∃ r, Sprt.deliverLoop c n e i app = some r ∧ LInv g r.1 ∧ r.2.1 < (r.1.rx c).window := by
  intro n
  induction n with
  | zero => intro e i app _ _ h; omega
  | succ n ih =>
    intro e i app h hi hn
    have hR := h.rx c hc
    have hwin := hR.win
    unfold Sprt.deliverLoop
    simp only
    rw [if_pos (by omega)]
    rcases hb : (e.rx c).buf i with _ | p
    · exact ⟨_, rfl, h, hi⟩
    · simp only
      split
      · exact ⟨_, rfl, h, hi⟩
      · obtain ⟨hp1, hp2⟩ := hR.size i p hb
        have h1 : LInv g ((e.setRx c { e.rx c with baseSeq := ((e.rx c).baseSeq + 1) % 16384, buf := upd (e.rx c).buf i none, busy := app.headD false }).emit (.delivered c (e.rx c).baseSeq p)) := by
          refine LInv.emit (a := .delivered c (e.rx c).baseSeq p) (h.setRx c (r := { e.rx c with baseSeq := ((e.rx c).baseSeq + 1) % 16384, buf := upd (e.rx c).buf i none, busy := app.headD false }) (fun _ => ⟨hwin, hR.inp, Nat.mod_lt _ (by omega), ?_⟩) (h.rxp c)) (by intro pkt hp; cases hp) (by intro d m q hq; cases hq; exact ⟨hp1, hp2⟩)
          intro j q hj
          by_cases hji : j = i
          · subst hji
            have : upd (e.rx c).buf j none j = some q := hj
            rw [upd_eq] at this; cases this
          · have : upd (e.rx c).buf i none j = some q := hj
            rw [upd_ne _ _ hji] at this
            exact hR.size j q this
        have hrx : ((e.setRx c { e.rx c with baseSeq := ((e.rx c).baseSeq + 1) % 16384, buf := upd (e.rx c).buf i none, busy := app.headD false }).emit (.delivered c (e.rx c).baseSeq p)).rx c
            = { e.rx c with baseSeq := ((e.rx c).baseSeq + 1) % 16384, buf := upd (e.rx c).buf i none, busy := app.headD false } := upd_eq _ _ _
        refine ih _ _ _ h1 ?_ ?_
        · rw [hrx]; exact next_lt hi
        · rw [hrx]
          have := used_lt (f := (e.rx c).buf) (i := i) (by rw [hb]; rfl) hi
          simp only
          omega

theorem LInv.deliverChan {g : Prop} {c : Nat} (hc : Rel c) {e : Ep} (h : LInv g e) {i : Nat} (hi : i < (e.rx c).window) (app : List Bool) :
    ∃ r, Sprt.deliverChan e c i app = some r ∧ LInv g r.1 := by
  have hw := (h.rx c hc).win
  have hcap := hc.cap
  obtain ⟨r, hr, h1, h2⟩ := LInv.deliverLoop hc 98 e i app h hi (by have := used_le (e.rx c).buf (e.rx c).window; omega)
  unfold Sprt.deliverChan
  rw [hr, Option.bind_some]
  have hR := h1.rx c hc
  exact ⟨_, rfl, h1.setRx c (fun _ => ⟨hR.win, h2, hR.base, hR.size⟩) (h1.rxp c)⟩

theorem LInv.deliver {g : Prop} {e : Ep} (h : LInv g e) (app : List Bool) : ∃ r, Sprt.deliver e app = some r ∧ LInv g r.1 := by
  unfold Sprt.deliver
  obtain ⟨r, hr, h1⟩ := h.deliverChan (Or.inl rfl) (h.rx 1 (Or.inl rfl)).inp app
  rw [hr, Option.bind_some]
  exact h1.deliverChan (Or.inr rfl) (h1.rx 2 (Or.inr rfl)).inp _

theorem ROk.store {c : Nat} {r : RxChan} (h : ROk c r) {i : Nat} {p : List Nat} (hp : 1 ≤ p.length ∧ p.length ≤ 256) :
    ROk c { r with buf := upd r.buf i (some p) } := by
  refine ⟨h.win, h.inp, h.base, ?_⟩
  intro j q hj
  by_cases hji : j = i
  · subst hji
    have : upd r.buf j (some p) j = some q := hj
    rw [upd_eq] at this; cases this; exact hp
  · have : upd r.buf i (some p) j = some q := hj
    rw [upd_ne _ _ hji] at this
    exact h.size j q this

theorem LInv.rxNext {g : Prop} {e : Ep} (h : LInv g e) {c : Nat} (hc : Rel c) (seq : Nat) {p : List Nat} (hp : 1 ≤ p.length ∧ p.length ≤ 256)
    (now : Nat) (app : List Bool) : ∃ e', Sprt.rxNext e c seq p now app = some e' ∧ LInv g e' := by
  unfold Sprt.rxNext
  simp only
  have h1 := h.queueAck c seq now
  generalize Sprt.queueAck e c seq now = e1 at h1
  have hR := h1.rx c hc
  have hwin := hR.win
  have hinp := hR.inp
  rw [if_pos (by omega)]
  split
  · exact ⟨_, rfl, h1.setRx c (fun _ => hR.store hp) (h1.rxp c)⟩
  · have h2 : LInv g ((e1.setRx c { e1.rx c with baseSeq := ((e1.rx c).baseSeq + 1) % 16384, buf := upd (e1.rx c).buf (e1.rx c).inPtr none, busy := app.headD false }).emit (.delivered c seq p)) := by
      refine LInv.emit (a := .delivered c seq p) (h1.setRx c (r := { e1.rx c with baseSeq := ((e1.rx c).baseSeq + 1) % 16384, buf := upd (e1.rx c).buf (e1.rx c).inPtr none, busy := app.headD false }) (fun _ => ⟨hwin, hR.inp, Nat.mod_lt _ (by omega), ?_⟩) (h1.rxp c)) (by intro pkt hp; cases hp) (by intro d m q hq; cases hq; exact hp)
      intro j q hj
      by_cases hji : j = (e1.rx c).inPtr
      · have : upd (e1.rx c).buf (e1.rx c).inPtr none j = some q := hj
        rw [hji, upd_eq] at this; cases this
      · have : upd (e1.rx c).buf (e1.rx c).inPtr none j = some q := hj
        rw [upd_ne _ _ hji] at this
        exact hR.size j q this
    have hrx : ((e1.setRx c { e1.rx c with baseSeq := ((e1.rx c).baseSeq + 1) % 16384, buf := upd (e1.rx c).buf (e1.rx c).inPtr none, busy := app.headD false }).emit (.delivered c seq p)).rx c
        = { e1.rx c with baseSeq := ((e1.rx c).baseSeq + 1) % 16384, buf := upd (e1.rx c).buf (e1.rx c).inPtr none, busy := app.headD false } := upd_eq _ _ _
    obtain ⟨r, hr, h3⟩ := h2.deliverChan hc (i := if (e1.rx c).inPtr + 1 ≥ (e1.rx c).window then 0 else (e1.rx c).inPtr + 1)
      (by rw [hrx]; exact next_lt hinp) app.tail
    rw [hr, Option.bind_some]
    exact ⟨_, rfl, h3⟩

theorem LInv.rxOther {g : Prop} {e : Ep} (h : LInv g e) {c : Nat} (hc : Rel c) (seq : Nat) {p : List Nat} (hp : 1 ≤ p.length ∧ p.length ≤ 256)
    (now : Nat) : ∃ e', Sprt.rxOther e c seq p now = some e' ∧ LInv g e' := by
  unfold Sprt.rxOther
  simp only
  have h1 := h.queueAck c seq now
  have hR0 := h.rx c hc
  have hwin := hR0.win
  have hinp := hR0.inp
  split
  · next hd =>
    have : (if (e.rx c).inPtr + (seq + 16384 - (e.rx c).baseSeq) % 16384 ≥ (e.rx c).window then (e.rx c).inPtr + (seq + 16384 - (e.rx c).baseSeq) % 16384 - (e.rx c).window else (e.rx c).inPtr + (seq + 16384 - (e.rx c).baseSeq) % 16384) < cap c := by
      split <;> omega
    rw [if_pos this]
    exact ⟨_, rfl, h1.setRx c (fun _ => (h1.rx c hc).store hp) (h1.rxp c)⟩
  · split
    · exact ⟨_, rfl, h1.status 3⟩
    · exact ⟨_, rfl, h⟩

theorem LInv.rxPayload {g : Prop} {e : Ep} (h : LInv g e) (c seq : Nat) (p : List Nat) (now : Nat) (app : List Bool) :
    ∃ e', Sprt.rxPayload e c seq p now app = some e' ∧ LInv g e' := by
  unfold Sprt.rxPayload
  split
  · exact ⟨_, rfl, h⟩
  · next hl =>
    have hp : 1 ≤ p.length ∧ p.length ≤ 256 := by have := h.rxp c; omega
    split
    · next hc =>
      split
      · exact h.rxNext hc seq hp now app
      · exact h.rxOther hc seq hp now
    · exact ⟨_, rfl, h.emit (by intro pkt hp; cases hp) (by intro d m q hq; cases hq; exact hp)⟩

theorem LInv.rxBody {g : Prop} {e : Ep} (h : LInv g e) (pkt : List Nat) (now : Nat) (app : List Bool) :
    Well (g ∨ .status 1 ∈ e.acts) (Sprt.rxBody e pkt now app) (fun r => LInv g r.1) := by
  unfold Sprt.rxBody
  simp only
  have h1 : LInv g (e.setTx (get16 pkt 2 / 16384 % 4) { e.tx (get16 pkt 2 / 16384 % 4) with baseSeq := get16 pkt 4 % 16384 }) := by
    refine h.setTx _ (fun hc => ?_) (fun hc => ?_) (h.txp _)
    · have hT := h.tx _ hc
      obtain ⟨L, O, hs⟩ := hT.snd
      exact ⟨hT.win, ⟨L, O, hs.same ⟨rfl, rfl, rfl, rfl, rfl⟩⟩, hT.tri, hT.size⟩
    · obtain ⟨l, hq⟩ := h.que _ hc
      exact ⟨l, ⟨hq.lst.first, hq.lst.last, hq.lst.links, hq.lst.out⟩, hq.nodup, hq.mem, hq.all⟩
  split
  · exact Or.inr ⟨_, rfl, h1⟩
  · rcases LInv.processAcks ((List.range (get16 pkt 4 / 16384 % 4)).map fun i => get16 pkt (6 + 2 * i)) h1 with ⟨hb, he⟩ | ⟨e2, he, h2⟩
    · rw [he]; exact Or.inl ⟨hb, rfl⟩
    rw [he, Option.bind_some]
    obtain ⟨e3, he3, h3⟩ := h2.rxPayload (get16 pkt 2 / 16384 % 4) (get16 pkt 2 % 16384) (pkt.drop (6 + 2 * (get16 pkt 4 / 16384 % 4))) now app
    rw [he3, Option.bind_some]
    exact Or.inr ⟨_, rfl, h3⟩

theorem LInv.rxPacket {g : Prop} {e : Ep} (h : LInv g e) (pkt : List Nat) (now : Nat) (app : List Bool) :
    Well (g ∨ .status 1 ∈ e.acts) (Sprt.rxPacket e pkt now app) (fun r => LInv g r.1) := by
  rw [rxPacket_eq]; unfold rxPlain
  simp only
  split
  · exact Or.inr ⟨_, rfl, h⟩
  · split
    · exact Or.inr ⟨_, rfl, h⟩
    · split
      · exact Or.inr ⟨_, rfl, h⟩
      · split
        · have h1 : LInv g { e with rxSub := pkt[0]?.getD 0 % 128 } := h.congr rfl rfl h.queue rfl
          exact h1.rxBody pkt now app
        · split
          · exact Or.inr ⟨_, rfl, h.status 2⟩
          · exact h.rxBody pkt now app

theorem LInv.timerExpired {g : Prop} {e : Ep} (h : LInv g e) (now : Nat) (app : List Bool) :
    ∃ e', Sprt.timerExpired e now app = some e' ∧ LInv g e' := by
  unfold Sprt.timerExpired
  split
  · exact ⟨_, rfl, h⟩
  · unfold Sprt.timerDue
    have h1 : ∃ e1, (if e.immediate then (Sprt.deliver { e with immediate := false } app).bind fun r => some r.1 else some e) = some e1 ∧ LInv g e1 := by
      split
      · have h0 : LInv g { e with immediate := false } := h.congr rfl rfl h.queue rfl
        obtain ⟨r, hr, h2⟩ := h0.deliver app
        rw [hr]
        exact ⟨_, rfl, h2⟩
      · exact ⟨_, rfl, h⟩
    obtain ⟨e1, he1, h1⟩ := h1
    rw [he1, Option.bind_some]
    obtain ⟨r1, hr1, h2⟩ := h1.timerChan (c := 1) (now := now) (Or.inl rfl)
    rw [hr1, Option.bind_some]
    obtain ⟨r2, hr2, h3⟩ := h2.timerChan (c := 2) (now := now) (Or.inr rfl)
    rw [hr2, Option.bind_some]
    refine ⟨_, rfl, ?_⟩
    have hu : ∀ {e : Ep}, LInv g e → LInv g (updateTimer e) := fun {e} h =>
      h.congr (updateTimer_tx _) (updateTimer_rx _) (by rw [updateTimer_q]; exact h.queue) (updateTimer_acts _)
    apply hu
    split
    · exact h3.buildSend 0 0 (by decide)
    · exact h3

theorem LInv.setBusy {g : Prop} {e : Ep} (h : LInv g e) (c : Nat) (b : Bool) : LInv g (setBusy e c b) := by
  unfold Sprt.setBusy
  split
  · next hc =>
    simp only
    have h1 : LInv g (e.setRx c { e.rx c with busy := b }) := by
      have hR := h.rx c hc
      exact h.setRx c (fun _ => ⟨hR.win, hR.inp, hR.base, hR.size⟩) (h.rxp c)
    split
    · exact h1.congr (updateTimer_tx _) (updateTimer_rx _) (by rw [updateTimer_q]; exact h1.queue) (updateTimer_acts _)
    · exact h1
  · exact h

end Sprt
