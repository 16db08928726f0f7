import Verif.V42.Inv

/-! # The parts of the steps keep the invariant -/

namespace V42

section
variable {lx : Bool} {x x' y : Lapm} {xy yx : List Frame}

/-- Nothing of this connection changes. -/
structure Same (x x' : Lapm) : Prop where
  vs : x'.vs = x.vs
  va : x'.va = x.va
  vr : x'.vr = x.vr
  put : x'.put = x.put
  get : x'.get = x.get
  acked : x'.acked = x.acked
  info : x'.info = x.info
  taken : x'.taken = x.taken
  deliv : delivered x' = delivered x

theorem Ring.same {A : Nat} (h : Ring A x) (s : Same x x') : Ring A x' := by
  obtain ⟨G, h1, h2, h3, h4, h5, h6, h7, h8⟩ := h
  refine ⟨G, h1, by rw [s.taken]; exact h2, s.va.trans h3, s.vs.trans h4, s.acked.trans h5, s.get.trans h6, by rw [s.put, s.taken]; exact h7, ?_⟩
  rw [s.taken, s.info]
  exact h8

theorem Dir.sameX {A : Nat} {ly : Bool} (h : Dir A lx ly x y xy yx) (s : Same x x') : Dir A lx ly x' y xy yx :=
  ⟨fun hl => (h.ring hl).same s, by rw [s.taken]; exact h.le, by rw [s.taken]; exact h.pre, h.vr, by rw [s.taken]; exact h.chain, h.acks⟩

theorem Dir.sameY {A : Nat} {ly : Bool} (h : Dir A ly lx y x yx xy) (s : Same x x') (ha : Acks (delivered x).length A (xy ++ x'.ctrl)) : Dir A ly lx y x' yx xy :=
  ⟨h.ring, by rw [s.deliv]; exact h.le, by rw [s.deliv]; exact h.pre, fun hl => by rw [s.vr, s.deliv]; exact h.vr hl, by rw [s.deliv]; exact h.chain, by rw [s.deliv]; exact ha⟩

theorem Inv.loc (h : Inv lx x y xy yx) : Loc lx x := by
  obtain ⟨_, _, _, _, _, h, _⟩ := h
  exact h

theorem Inv.same (h : Inv lx x y xy yx) (s : Same x x') (hc : x'.ctrl = x.ctrl) (hl : Loc lx x') : Inv lx x' y xy yx := by
  obtain ⟨A, B, ly, h1, h2, _, h4, h5, h6⟩ := h
  exact ⟨A, B, ly, h1.sameX s, h2.sameY s (by rw [hc]; exact h2.acks), hl, h4, h5, h6⟩

theorem Inv.vr_lt (h : Inv true x y xy yx) : x.vr < 128 := by
  obtain ⟨_, _, _, _, h2, _⟩ := h
  rw [h2.vr rfl]; exact Nat.mod_lt _ (by decide)

theorem delivered_append (x : Lapm) (e : Ev) (he : ∀ d, e ≠ .data d) : delivered { x with log := x.log ++ [e] } = delivered x := by
  unfold delivered
  simp only [List.filterMap_append]
  cases e with
  | data d => exact absurd rfl (he d)
  | _ => simp

theorem delivered_data (x : Lapm) (d : List Nat) : delivered { x with log := x.log ++ [.data d] } = delivered x ++ [d] := by
  unfold delivered
  simp

theorem inv_report {e : Ev} (h : Inv lx x y xy yx) (he : ∀ d, e ≠ .data d) : Inv lx (report x e) y xy yx := by
  have hd : delivered (report x e) = delivered x := delivered_append x e he
  have hl := h.loc
  exact h.same ⟨rfl, rfl, rfl, rfl, rfl, rfl, rfl, rfl, hd⟩ rfl ⟨hl.conf, hl.k, hl.timer, hl.good, hl.alive, fun ho => ⟨(hl.opening ho).1, hd.trans (hl.opening ho).2⟩⟩

/-- Changes of other variables. -/
theorem inv_vars (h : Inv lx x y xy yx) (localBusy farBusy rejected : Bool) (retry : Nat) {timer : Option Timer} (ht : timer ≠ some .negotiate) :
    Inv lx { x with localBusy := localBusy, farBusy := farBusy, rejected := rejected, retry := retry, timer := timer } y xy yx := by
  have hl := h.loc
  exact h.same ⟨rfl, rfl, rfl, rfl, rfl, rfl, rfl, rfl, rfl⟩ rfl ⟨hl.conf, hl.k, ht, hl.good, hl.alive, hl.opening⟩

theorem inv_t401Start (h : Inv lx x y xy yx) : Inv lx (t401Start x) y xy yx := inv_vars h _ _ _ _ (by decide)
theorem inv_t403Start (h : Inv lx x y xy yx) : Inv lx (t403Start x) y xy yx := inv_vars h _ _ _ _ (by decide)
theorem inv_t401Stop (h : Inv lx x y xy yx) : Inv lx (t401Stop x) y xy yx := inv_vars h _ _ _ _ (by decide)
theorem inv_farBusy (h : Inv lx x y xy yx) (b : Bool) : Inv lx { x with farBusy := b } y xy yx := inv_vars h _ _ _ _ h.loc.timer
theorem inv_retry (h : Inv lx x y xy yx) (n : Nat) : Inv lx { x with retry := n } y xy yx := inv_vars h _ _ _ _ h.loc.timer
theorem inv_timerOff (h : Inv lx x y xy yx) : Inv lx { x with timer := none } y xy yx := inv_vars h _ _ _ _ (by decide)

theorem inv_ctrl {f : Frame} (h : Inv lx x y xy yx) (hg : GoodF f) (hs : nsOf f = none) (hr : ∀ m, nrOf f = some m → lx = true ∧ m = x.vr) : Inv lx (ctrlFrame x f) y xy yx := by
  unfold ctrlFrame
  split
  · exact h
  · obtain ⟨A, B, ly, h1, h2, hl, h4, h5, h6⟩ := h
    have s : Same x { x with ctrl := x.ctrl ++ [f] } := ⟨rfl, rfl, rfl, rfl, rfl, rfl, rfl, rfl, rfl⟩
    refine ⟨A, B, ly, h1.sameX s, h2.sameY s ?_, ⟨hl.conf, hl.k, hl.timer, ?_, hl.alive, hl.opening⟩, h4, h5, h6⟩
    · simp only
      rw [← List.append_assoc]
      refine acks_append (fun m hm => ?_) _ h2.acks
      obtain ⟨h7, h8⟩ := hr m hm
      rw [h8]; exact h2.vr h7
    · intro g hg'
      rcases List.mem_append.mp hg' with hg' | hg'
      · exact hl.good g hg'
      · rw [List.mem_singleton.mp hg']; exact ⟨hg, hs⟩

theorem sup_octet : ∀ (v : Fin 128) (p : Fin 2), (((v.val <<< 1) ||| p.val) % 256) >>> 1 = v.val := by decide

theorem inv_supervisory (h : Inv true x y xy yx) (addr : Nat) {c p : Nat} (hc : c = 0 ∨ c = 4 ∨ c = 8) (hp : p < 2) : Inv true (txSupervisory x addr c p) y xy yx := by
  have hv := h.vr_lt
  have h1 : (0x01 ||| c) &&& 3 = 1 := by rcases hc with rfl | rfl | rfl <;> decide
  unfold txSupervisory
  refine inv_ctrl h ?_ ?_ ?_
  · unfold GoodF; simp only; omega
  · unfold nsOf; simp only; rw [if_pos (Or.inr h1)]
  · intro m hm
    unfold nrOf at hm
    simp only at hm
    rw [if_neg (by omega)] at hm
    rw [← Option.some.inj hm]
    exact ⟨rfl, sup_octet ⟨_, hv⟩ ⟨p, hp⟩⟩

theorem inv_unnumbered (h : Inv lx x y xy yx) (addr : Nat) {c : Nat} (hc : (0x03 ||| c) &&& 3 = 3 ∧ ((0x03 ||| c) &&& 0xEC = 0x40 ∨ (0x03 ||| c) &&& 0xEC = 0x60 ∨ (0x03 ||| c) &&& 0xEC = 0x0C)) :
    Inv lx (txUnnumbered x addr c) y xy yx := by
  unfold txUnnumbered
  exact inv_ctrl h hc rfl (fun m hm => by cases hm)

theorem ready_or (x : Lapm) : x.ready = 0 ∨ x.ready = 4 ∨ x.ready = 8 := by
  unfold Lapm.ready
  split <;> simp

theorem inv_state (h : Inv lx x y xy yx) {st : St} (hst : st = .release ∨ st = .idle) : Inv lx { x with state := st } y xy yx := by
  have hl := h.loc
  refine h.same ⟨rfl, rfl, rfl, rfl, rfl, rfl, rfl, rfl, rfl⟩ rfl ⟨hl.conf, hl.k, hl.timer, hl.good, ?_, ?_⟩
  · rcases hst with rfl | rfl <;> intro h <;> rcases h with h | h <;> cases h
  · rcases hst with rfl | rfl <;> intro h <;> cases h

theorem inv_disconnect (h : Inv lx x y xy yx) : Inv lx (disconnect x) y xy yx :=
  inv_t401Start (inv_unnumbered (inv_state h (Or.inl rfl)) _ (by decide))

theorem inv_stop (h : Inv lx x y xy yx) : Inv lx (stop x) y xy yx := inv_disconnect (inv_timerOff h)

/-- The end of the connection. -/
theorem inv_die (h : Inv lx x y xy yx) : Inv false { reset x with state := .idle } y xy yx := by
  obtain ⟨A, B, ly, h1, h2, hl, h4, h5, h6⟩ := h
  refine ⟨A, B, ly, ⟨fun h => (by cases h), h1.le, h1.pre, h1.vr, h1.chain, h1.acks⟩, ⟨h2.ring, h2.le, h2.pre, fun h => (by cases h), h2.chain, ?_⟩,
    ⟨hl.conf, rfl, hl.timer, fun f hf => (by cases hf), fun h => (by rcases h with h | h <;> cases h), fun h => (by cases h)⟩, h4, h5, h6⟩
  have := acks_left _ _ h2.acks
  rw [show ({ reset x with state := St.idle } : Lapm).ctrl = [] from rfl, List.append_nil]
  exact this

/-- The beginning of the connection on the calling side. -/
theorem inv_open (h : Inv lx x y xy yx) (ho : x.state = .establish) : Inv true { reset x with state := .data } y xy yx := by
  obtain ⟨A, B, ly, h1, h2, hl, h4, h5, h6⟩ := h
  obtain ⟨o1, o2⟩ := hl.opening ho
  have hlx := hl.alive (Or.inr ho)
  have hA : A = 0 := by
    have h7 := h1.le
    have h8 : x.taken.length = 0 := by rw [o1]; rfl
    omega
  refine ⟨A, B, ly, ⟨fun _ => ?_, h1.le, h1.pre, h1.vr, h1.chain, h1.acks⟩, ⟨h2.ring, h2.le, h2.pre, fun _ => ?_, h2.chain, ?_⟩,
    ⟨hl.conf, rfl, hl.timer, fun f hf => (by cases hf), fun _ => rfl, fun h => (by cases h)⟩, h4, h5, h6⟩
  · refine ⟨0, by omega, by omega, ?_, rfl, ?_, rfl, ?_, ?_⟩
    · rw [hA]; rfl
    · rw [hA]; rfl
    · show 0 = x.taken.length % 16
      rw [o1]; rfl
    · intro i _ hi
      have hi : i < x.taken.length := hi
      rw [o1] at hi; cases hi
  · show 0 = (delivered x).length % 128
    rw [o2]; rfl
  · have := acks_left _ _ h2.acks
    rw [show ({ reset x with state := St.data } : Lapm).ctrl = [] from rfl, List.append_nil]
    exact this

theorem inv_txInformation (h : Inv true x y xy yx) (hne : x.state ≠ .establish) (sup : Supply) : Inv true (txInformation x sup).2 y xy yx := by
  unfold txInformation
  split
  · exact h
  · split
    · exact h
    · rename_i hgp
      have hgp := Classical.not_not.mp hgp
      simp only
      generalize hnx : (if x.put + 1 ≥ 16 then 0 else x.put + 1) = nx
      split
      · exact h
      · rename_i hfull
        split
        · exact inv_report h (fun d hd => by injection hd)
        · exact h
        · rename_i d _
          obtain ⟨A, B, ly, h1, h2, hl, h4, h5, h6⟩ := h
          obtain ⟨G, g1, g2, g3, g4, g5, g6, g7, g8⟩ := h1.ring rfl
          obtain ⟨l1, l2, l3⟩ := h1.le
          have hroom : x.taken.length + 1 ≤ A + 15 := by
            rw [g7] at hnx
            rw [g5] at hfull
            split at hnx <;> omega
          refine ⟨A, B, ly, ⟨fun _ => ⟨G, g1, ?_, g3, g4, g5, g6, ?_, ?_⟩, ?_, ?_, h1.vr, chain_more _ h1.chain, h1.acks⟩, ⟨h2.ring, h2.le, h2.pre, h2.vr, h2.chain, h2.acks⟩,
            ⟨hl.conf, hl.k, hl.timer, hl.good, hl.alive, fun ho => absurd ho hne⟩, h4, h5, h6⟩
          · simp only [List.length_append, List.length_cons, List.length_nil]; omega
          · simp only [List.length_append, List.length_cons, List.length_nil]
            rw [g7] at hnx
            split at hnx <;> omega
          · intro i hi1 hi2
            simp only [List.length_append, List.length_cons, List.length_nil] at hi2 ⊢
            rw [g7]
            by_cases hi : i < x.taken.length
            · rw [List.getElem?_append_left hi, if_neg (by omega)]
              exact g8 i hi1 hi
            · obtain rfl : i = x.taken.length := by omega
              rw [if_pos rfl]; simp
          · simp only [List.length_append, List.length_cons, List.length_nil]; omega
          · simp only
            rw [List.take_append_of_le_length l2]
            exact h1.pre

theorem txInformation_state (x : Lapm) (sup : Supply) : (txInformation x sup).2.state = x.state := by
  unfold txInformation
  repeat' split
  all_goals first
    | rfl
    | (simp only; repeat' split) <;> rfl

theorem inv_response (h : Inv true x y xy yx) (hne : x.state ≠ .establish) (sup : Supply) (addr c : Nat) : Inv true (response x sup addr c) y xy yx := by
  unfold response
  split
  · exact inv_supervisory h _ (ready_or _) (by decide)
  · split
    · exact inv_txInformation h hne sup
    · exact inv_supervisory (inv_txInformation h hne sup) _ (ready_or _) (by decide)

theorem inv_rejectInfo (h : Inv lx x y xy yx) : Inv lx (rejectInfo x) y xy yx := by
  unfold rejectInfo
  split
  · exact h
  · rename_i hst
    have hst : x.state = .data := Classical.not_not.mp hst
    obtain ⟨A, B, ly, h1, h2, hl, h4, h5, h6⟩ := h
    refine ⟨A, B, ly, ⟨fun hlx => ?_, h1.le, h1.pre, h1.vr, h1.chain, h1.acks⟩, ⟨h2.ring, h2.le, h2.pre, h2.vr, h2.chain, h2.acks⟩,
      ⟨hl.conf, hl.k, hl.timer, hl.good, hl.alive, hl.opening⟩, h4, h5, h6⟩
    obtain ⟨G, g1, g2, g3, g4, g5, g6, g7, g8⟩ := h1.ring hlx
    exact ⟨A, Nat.le_refl _, by simp only; omega, g3, g3, g5, g5, g7, g8⟩

theorem ackLoop_eq {n G : Nat} (hG : n ≤ G) : ∀ (k : Nat) (x : Lapm) (A : Nat), A ≤ n → n ≤ A + k → G ≤ A + 15 → x.va = A % 128 → x.acked = A % 16 → x.get = G % 16 →
    ackLoop (n % 128) k x = (n - A, { x with acked := n % 16, va := n % 128 }) := by
  intro k
  induction k with
  | zero =>
    intro x A h1 h2 _ h3 h4 _
    obtain rfl : A = n := by omega
    rw [ackLoop, Nat.sub_self, ← h3, ← h4]
  | succ k ih =>
    intro x A h1 h2 hA h3 h4 h5
    rw [ackLoop]
    by_cases hn : A = n
    · subst hn
      rw [if_neg (by rw [h3]; simp), Nat.sub_self, ← h3, ← h4]
    · rw [if_pos (by rw [h3, h4, h5]; omega)]
      have := ih { x with acked := if x.acked + 1 ≥ 16 then 0 else x.acked + 1, va := (x.va + 1) % 128 } (A + 1) (by omega) (by omega) (by omega)
        (by show (x.va + 1) % 128 = (A + 1) % 128; rw [h3]; omega) (by show (if x.acked + 1 ≥ 16 then 0 else x.acked + 1) = (A + 1) % 16; rw [h4]; split <;> omega) h5
      simp only
      rw [this]
      simp only [Prod.mk.injEq, and_true]
      omega

theorem inv_ackInfo {f : Frame} {m : Nat} (h : Inv true x y xy (f :: yx)) (hm : nrOf f = some m) : Inv true (ackInfo x m) y xy (f :: yx) := by
  unfold ackInfo
  split
  · exact inv_disconnect h
  · rename_i hok
    have hok := Classical.not_not.mp hok
    obtain ⟨A, B, ly, h1, h2, hl, h4, h5, h6⟩ := h
    obtain ⟨G, g1, g2, g3, g4, g5, g6, g7, g8⟩ := h1.ring rfl
    obtain ⟨l1, l2, l3⟩ := h1.le
    have hk := h1.acks
    rw [List.cons_append, Acks, hm] at hk
    obtain ⟨n, n1, n2, n3⟩ := hk
    have hnR := acks_le _ n3
    rw [hl.k, g3, g4, n2] at hok
    have hnG : n ≤ G := by omega
    have hloop := ackLoop_eq hnG 16 x A n1 (by omega) (by omega) g3 g5 g6
    rw [← n2] at hloop
    have hinv : Inv true { x with acked := n % 16, va := n % 128 } y xy (f :: yx) := by
      refine ⟨n, B, ly, ⟨fun _ => ⟨G, hnG, g2, rfl, g4, rfl, g6, g7, fun i hi hi2 => g8 i (by omega) hi2⟩, ?_, h1.pre, h1.vr, h1.chain, ?_⟩, ⟨h2.ring, h2.le, h2.pre, h2.vr, h2.chain, h2.acks⟩,
        ⟨hl.conf, hl.k, hl.timer, hl.good, hl.alive, hl.opening⟩, h4, h5, h6⟩
      · simp only; omega
      · rw [List.cons_append, Acks, hm]
        exact ⟨n, Nat.le_refl _, n2, n3⟩
    rw [hloop, n2]
    simp only
    split
    · split
      · exact inv_t401Start (inv_t403Start hinv)
      · exact inv_t403Start hinv
    · exact hinv

theorem inv_pop {f : Frame} (h : Inv lx x y xy (f :: yx)) : Inv lx x y xy yx := by
  obtain ⟨A, B, ly, h1, h2, hl, h4, h5, h6⟩ := h
  exact ⟨A, B, ly, ⟨h1.ring, h1.le, h1.pre, h1.vr, h1.chain, acks_tail h1.acks⟩, ⟨h2.ring, h2.le, h2.pre, h2.vr, chain_tail h2.chain, h2.acks⟩, hl, h4, h5,
    fun g hg => h6 g (List.mem_cons_of_mem _ hg)⟩

theorem inv_deliver {f : Frame} {d : List Nat} (h : Inv true x y xy (f :: yx)) (hne : x.state ≠ .establish) (hf : nsOf f = some (x.vr, d)) :
    Inv true { x with rejected := false, log := x.log ++ [.data d], vr := (x.vr + 1) % 128 } y xy yx := by
  have hp := inv_pop h
  obtain ⟨A, B, ly, h1, h2, hl, h4, h5, h6⟩ := h
  obtain ⟨l1, l2, l3⟩ := h2.le
  have hc := h2.chain
  rw [Chain, hf] at hc
  obtain ⟨i, i1, i2, i3, i4⟩ := hc
  have hi : i < y.taken.length := (List.getElem?_eq_some_iff.mp i2).1
  rw [h2.vr rfl] at i1
  have hiR : i = (delivered x).length := by omega
  have hd : delivered { x with rejected := false, log := x.log ++ [.data d], vr := (x.vr + 1) % 128 } = delivered x ++ [d] := delivered_data x d
  refine ⟨A, B, ly, ⟨h1.ring, h1.le, h1.pre, h1.vr, h1.chain, acks_tail h1.acks⟩, ⟨h2.ring, ?_, ?_, fun _ => ?_, ?_, ?_⟩, ⟨hl.conf, hl.k, hl.timer, hl.good, hl.alive, fun ho => absurd ho hne⟩, h4, h5,
    fun g hg => h6 g (List.mem_cons_of_mem _ hg)⟩
  · rw [hd, List.length_append, List.length_singleton]; omega
  · rw [hd, List.length_append, List.length_singleton, List.take_add_one, ← h2.pre, ← hiR, i2]; rfl
  · rw [hd, List.length_append, List.length_singleton]
    simp only
    rw [h2.vr rfl]; omega
  · rw [hd, List.length_append, List.length_singleton]
    refine chain_mono _ ?_ i4
    omega
  · rw [hd, List.length_append, List.length_singleton]
    exact acks_more (by omega) _ h2.acks

end

end V42
