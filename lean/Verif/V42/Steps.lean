import Verif.V42.Micro

/-! # Each step keeps the invariant -/

namespace V42

section
variable {lx : Bool} {x y : Lapm} {xy yx : List Frame}

/-- The invariant, with some value for if the side still belongs to the connection. -/
def InvE (x y : Lapm) (xy yx : List Frame) : Prop := ∃ lx, Inv lx x y xy yx

theorem ackInfo_state (x : Lapm) (m : Nat) (h : x.state ≠ .establish) : (ackInfo x m).state ≠ .establish := by
  have hl : ∀ (k : Nat) (x : Lapm), (ackLoop m k x).2.state = x.state := by
    intro k
    induction k with
    | zero => intro x; rfl
    | succ k ih =>
      intro x
      rw [ackLoop]
      split
      · exact ih _
      · rfl
  unfold ackInfo
  split
  · unfold disconnect t401Start txUnnumbered ctrlFrame
    split <;> simp
  · simp only
    split
    · split
      · rw [show (t401Start (t403Start (ackLoop m 16 x).2)).state = (ackLoop m 16 x).2.state from rfl, hl]; exact h
      · rw [show (t403Start (ackLoop m 16 x).2).state = (ackLoop m 16 x).2.state from rfl, hl]; exact h
    · rw [hl]; exact h

theorem rejectInfo_state (x : Lapm) : (rejectInfo x).state = x.state := by
  unfold rejectInfo
  split <;> rfl

/-- Whether the frame is for a connection. -/
theorem inv_valid (h : Inv lx x y xy yx) :
    ((validDataState x).1 = false → InvE (validDataState x).2 y xy yx) ∧ ((validDataState x).1 = true → Inv true (validDataState x).2 y xy yx ∧ (validDataState x).2.state ≠ .establish) := by
  unfold validDataState
  split
  · exact ⟨fun _ => ⟨_, h⟩, fun h => (by cases h)⟩
  · rename_i hs
    exact ⟨fun h => (by cases h), fun _ => ⟨inv_report (inv_open h hs) (fun d hd => by injection hd), fun h => (by cases h)⟩⟩
  · rename_i hs
    have := h.loc.alive (Or.inl hs)
    subst this
    exact ⟨fun h => (by cases h), fun _ => ⟨h, fun h' => by rw [hs] at h'; cases h'⟩⟩
  · exact ⟨fun _ => ⟨_, inv_report (inv_die h) (fun d hd => by injection hd)⟩, fun h => (by cases h)⟩

theorem and_one_lt (c : Nat) : c &&& 1 < 2 := by
  have := Nat.and_le_right (n := c) (m := 1); omega

theorem inv_receiveInformation {addr b c : Nat} {d : List Nat} (h : Inv lx x y xy ((addr :: b :: c :: d) :: yx)) (hb : b &&& 3 ≠ 3) (hb1 : b &&& 3 ≠ 1) (sup : Supply) :
    ∃ x', receiveInformation x sup (addr :: b :: c :: d) = some x' ∧ InvE x' y xy yx := by
  obtain ⟨v1, v2⟩ := inv_valid h
  rw [receiveInformation]
  simp only
  generalize validDataState x = v at v1 v2 ⊢
  obtain ⟨ok, z⟩ := v
  simp only at v1 v2 ⊢
  cases ok with
  | false =>
    obtain ⟨l, hl⟩ := v1 rfl
    exact ⟨_, if_pos (by simp), l, inv_pop hl⟩
  | true =>
    obtain ⟨hz, hne⟩ := v2 rfl
    rw [if_neg (by simp)]
    split
    · exact ⟨_, rfl, _, inv_pop hz⟩
    · have ha := inv_ackInfo (m := c >>> 1) hz (by unfold nrOf; simp only; rw [if_neg hb])
      have hs := ackInfo_state z (c >>> 1) hne
      generalize ackInfo z (c >>> 1) = w at ha hs ⊢
      split
      · split
        · exact ⟨_, rfl, _, inv_pop (inv_supervisory ha _ (by simp) (by decide))⟩
        · exact ⟨_, rfl, _, inv_pop ha⟩
      · split
        · split
          · have := inv_supervisory ha w.rspAddr (c := 0x08) (by simp) (and_one_lt c)
            exact ⟨_, rfl, _, inv_pop (inv_vars this _ _ true _ this.loc.timer)⟩
          · exact ⟨_, rfl, _, inv_pop ha⟩
        · rename_i hvr
          have hvr := Classical.not_not.mp hvr
          have := inv_deliver (d := d) ha hs (by unfold nsOf; simp only; rw [if_neg (by omega), hvr])
          exact ⟨_, rfl, _, inv_response this hs _ _ _⟩

theorem inv_rxSupervisoryCmd {addr b c : Nat} {d : List Nat} (h : Inv true x y xy ((addr :: b :: c :: d) :: yx)) (hne : x.state ≠ .establish) (hb : b &&& 3 ≠ 3) (sup : Supply) :
    Inv true (rxSupervisoryCmd x sup addr b c) y xy yx := by
  have hnr : nrOf (addr :: b :: c :: d) = some (c >>> 1) := by unfold nrOf; simp only; rw [if_neg hb]
  unfold rxSupervisoryCmd
  split
  · exact inv_pop (inv_response (inv_ackInfo (inv_farBusy h false) hnr) (ackInfo_state _ _ hne) _ _ _)
  · split
    · have := inv_ackInfo (inv_farBusy h true) hnr
      simp only
      split
      · exact inv_pop (inv_supervisory this _ (ready_or _) (by decide))
      · exact inv_pop this
    · split
      · have := inv_ackInfo (inv_farBusy h false) hnr
        have hs := ackInfo_state { x with farBusy := false } (c >>> 1) hne
        simp only
        split
        · exact inv_pop (inv_response (inv_rejectInfo (inv_t403Start this)) (by rw [rejectInfo_state]; exact hs) _ _ _)
        · exact inv_pop (inv_response this hs _ _ _)
      · exact inv_pop h

theorem inv_rxSupervisoryRsp {addr b c : Nat} {d : List Nat} (h : Inv true x y xy ((addr :: b :: c :: d) :: yx)) (hb : b &&& 3 ≠ 3) : Inv true (rxSupervisoryRsp x b c) y xy yx := by
  have hnr : nrOf (addr :: b :: c :: d) = some (c >>> 1) := by unfold nrOf; simp only; rw [if_neg hb]
  refine inv_pop (f := addr :: b :: c :: d) ?_
  unfold rxSupervisoryRsp
  simp only
  split
  · exact h
  · split
    · have := inv_ackInfo (inv_farBusy h false) hnr
      split
      · exact inv_t403Start (inv_rejectInfo this)
      · exact this
    · split
      · have := inv_ackInfo (inv_farBusy h true) hnr
        have h2 : ∀ z, Inv true z y xy ((addr :: b :: c :: d) :: yx) → Inv true (if z.retry = 0 then t401Start z else z) y xy ((addr :: b :: c :: d) :: yx) := by
          intro z hz
          split
          · exact inv_t401Start hz
          · exact hz
        refine h2 _ ?_
        split
        · exact inv_t403Start (inv_rejectInfo this)
        · exact this
      · split
        · have := inv_ackInfo (inv_farBusy h false) hnr
          split
          · exact inv_t403Start (inv_rejectInfo this)
          · exact this
        · exact h

theorem ua_ok : ∀ b : Nat, (0x03 ||| (0x60 ||| (b &&& 0x10))) &&& 3 = 3 ∧ (0x03 ||| (0x60 ||| (b &&& 0x10))) &&& 0xEC = 0x60 := by
  intro b
  have : b &&& 0x10 = 0 ∨ b &&& 0x10 = 0x10 := by
    have h1 : b &&& 0x10 = (b % 32) &&& 0x10 := by
      rw [show b % 32 = b % 2 ^ 5 from rfl, ← Nat.and_two_pow_sub_one_eq_mod b 5, Nat.and_assoc]
      rfl
    have h2 : ∀ v : Fin 32, v.val &&& 0x10 = 0 ∨ v.val &&& 0x10 = 0x10 := by decide
    rw [h1]; exact h2 ⟨b % 32, Nat.mod_lt _ (by decide)⟩
  rcases this with h | h <;> rw [h] <;> decide

theorem inv_rxUnnumberedCmd {f : Frame} {b : Nat} (h : Inv lx x y xy (f :: yx)) (hb : b &&& 0xEC = 0x40 ∨ b &&& 0xEC = 0x60 ∨ b &&& 0xEC = 0x0C) :
    ∃ x', rxUnnumberedCmd x b f = some x' ∧ InvE x' y xy yx := by
  unfold rxUnnumberedCmd
  rw [if_neg (by omega)]
  split
  · refine ⟨_, rfl, ?_⟩
    split
    · exact ⟨_, inv_pop (inv_unnumbered h _ (by decide))⟩
    · have := inv_die h
      exact ⟨_, inv_pop (inv_report (inv_t401Stop (inv_unnumbered this _ ⟨(ua_ok b).1, Or.inr (Or.inl (ua_ok b).2)⟩)) (fun d hd => by injection hd))⟩
  · rw [if_neg (by omega)]
    exact ⟨_, rfl, _, inv_pop h⟩

theorem inv_rxUnnumberedRsp {f : Frame} {b : Nat} (h : Inv lx x y xy (f :: yx)) (hb : b &&& 0xEC = 0x40 ∨ b &&& 0xEC = 0x60 ∨ b &&& 0xEC = 0x0C) :
    ∃ x', rxUnnumberedRsp x b f = some x' ∧ InvE x' y xy yx := by
  unfold rxUnnumberedRsp
  split
  · refine ⟨_, rfl, ?_⟩
    split
    · split
      · exact ⟨_, inv_pop (inv_report h (fun d hd => by injection hd))⟩
      · exact ⟨_, inv_pop h⟩
    · split
      · exact ⟨_, inv_pop (inv_report (inv_die h) (fun d hd => by injection hd))⟩
      · exact ⟨_, inv_pop h⟩
    · split
      · exact ⟨_, inv_pop (inv_report (inv_t401Stop (inv_die h)) (fun d hd => by injection hd))⟩
      · exact ⟨_, inv_pop h⟩
  · split
    · refine ⟨_, rfl, ?_⟩
      split
      · rename_i hs
        exact ⟨_, inv_pop (inv_report (inv_t403Start (inv_open h hs)) (fun d hd => by injection hd))⟩
      · exact ⟨_, inv_pop (inv_report (inv_t401Stop (inv_die h)) (fun d hd => by injection hd))⟩
      · exact ⟨_, inv_pop h⟩
    · rw [if_neg (by omega)]
      exact ⟨_, rfl, _, inv_pop h⟩

theorem inv_receive {f : Frame} (h : InvE x y xy (f :: yx)) (sup : Supply) : ∃ x', receive x sup f = some x' ∧ InvE x' y xy yx := by
  obtain ⟨lx, h⟩ := h
  have hg : GoodF f := by
    obtain ⟨_, _, _, _, _, _, _, _, h6⟩ := h
    exact h6 f (List.mem_cons_self)
  match f, hg, h with
  | [addr, b], hg, h =>
    obtain ⟨g1, g2⟩ := hg
    rw [receive, if_pos g1]
    split
    · exact inv_rxUnnumberedCmd h g2
    · exact inv_rxUnnumberedRsp h g2
  | addr :: b :: c :: d, hg, h =>
    have hg : b &&& 3 ≠ 3 := hg
    rw [receive, if_neg hg]
    split
    · obtain ⟨v1, v2⟩ := inv_valid h
      simp only
      generalize validDataState x = v at v1 v2 ⊢
      obtain ⟨ok, z⟩ := v
      simp only at v1 v2 ⊢
      cases ok with
      | false =>
        obtain ⟨l, hl⟩ := v1 rfl
        exact ⟨_, if_pos (by simp), l, inv_pop hl⟩
      | true =>
        obtain ⟨hz, hne⟩ := v2 rfl
        rw [if_neg (by simp)]
        refine ⟨_, rfl, true, ?_⟩
        split
        · exact inv_rxSupervisoryCmd hz hne hg sup
        · exact inv_rxSupervisoryRsp hz hg
    · rename_i h1
      exact inv_receiveInformation h hg h1 sup

/-- The next of the other frames is sent. -/
theorem inv_emit {f : Frame} {t : List Frame} (h : Inv lx x y xy yx) (hc : x.ctrl = f :: t) : Inv lx { x with ctrl := t } y (xy ++ [f]) yx := by
  obtain ⟨A, B, ly, h1, h2, hl, h4, h5, h6⟩ := h
  have hf := hl.good f (by rw [hc]; exact List.mem_cons_self)
  refine ⟨A, B, ly, ⟨h1.ring, h1.le, h1.pre, h1.vr, ?_, h1.acks⟩, ⟨h2.ring, h2.le, h2.pre, h2.vr, h2.chain, ?_⟩,
    ⟨hl.conf, hl.k, hl.timer, fun g hg => hl.good g (by rw [hc]; exact List.mem_cons_of_mem _ hg), hl.alive, hl.opening⟩, h4, ?_, h6⟩
  · refine chain_append (fun ns d hn => ?_) _ h1.le.2.1 h1.chain
    rw [hf.2] at hn; cases hn
  · have := h2.acks
    rw [hc] at this
    rw [List.append_assoc]
    exact this
  · intro g hg
    rcases List.mem_append.mp hg with hg | hg
    · exact h5 g hg
    · rw [List.mem_singleton.mp hg]; exact hf.1

theorem inf_octet : ∀ v : Fin 128, ((v.val <<< 1) % 256) >>> 1 = v.val ∧ ((v.val <<< 1) % 256) &&& 3 ≠ 3 ∧ ((v.val <<< 1) % 256) &&& 3 ≠ 1 := by decide

/-- The next information frame is sent. -/
theorem inv_emitInfo (h : Inv true x y xy yx) (hgp : x.get ≠ x.put) (hc : x.ctrl = []) :
    Inv true { x with get := if x.get + 1 ≥ 16 then 0 else x.get + 1, vs := (x.vs + 1) % 128 } y (xy ++ [[x.cmdAddr, (x.vs <<< 1) % 256, (x.vr <<< 1) % 256] ++ x.info x.get]) yx := by
  have hvr := h.vr_lt
  obtain ⟨A, B, ly, h1, h2, hl, h4, h5, h6⟩ := h
  obtain ⟨G, g1, g2, g3, g4, g5, g6, g7, g8⟩ := h1.ring rfl
  have hvs : x.vs < 128 := by rw [g4]; omega
  have hG : G < x.taken.length := by
    rw [g6, g7] at hgp
    rcases Nat.lt_or_eq_of_le g2 with h | h
    · exact h
    · rw [h] at hgp; exact absurd rfl hgp
  obtain ⟨o1, o2, o3⟩ := inf_octet ⟨x.vs, hvs⟩
  simp only at o1 o2 o3
  refine ⟨A, B, ly, ⟨fun _ => ⟨G + 1, by omega, hG, g3, ?_, g5, ?_, g7, g8⟩, h1.le, h1.pre, h1.vr, ?_, h1.acks⟩, ⟨h2.ring, h2.le, h2.pre, h2.vr, h2.chain, ?_⟩,
    ⟨hl.conf, hl.k, hl.timer, hl.good, hl.alive, hl.opening⟩, h4, ?_, h6⟩
  · show (x.vs + 1) % 128 = (G + 1) % 128
    rw [g4]; omega
  · show (if x.get + 1 ≥ 16 then 0 else x.get + 1) = (G + 1) % 16
    rw [g6]; split <;> omega
  · refine chain_append (fun ns d hn => ?_) _ h1.le.2.1 h1.chain
    unfold nsOf at hn
    simp only [List.cons_append, List.nil_append] at hn
    rw [if_neg (by omega), o1, Option.some.injEq, Prod.mk.injEq] at hn
    refine ⟨G, by rw [← hn.1, g4], by rw [← hn.2, g6]; exact g8 G g1 hG, ?_⟩
    have := h1.le
    show x.taken.length ≤ G + 15
    omega
  · have h7 := h2.acks
    rw [hc, List.append_nil] at h7
    show Acks (delivered x).length B (xy ++ [_] ++ x.ctrl)
    rw [hc, List.append_nil]
    refine acks_append (fun m hm => ?_) _ h7
    unfold nrOf at hm
    simp only [List.cons_append, List.nil_append] at hm
    rw [if_neg o2] at hm
    rw [← Option.some.inj hm, ← h2.vr rfl]
    exact (inf_octet ⟨x.vr, hvr⟩).1
  · intro g hg
    rcases List.mem_append.mp hg with hg | hg
    · exact h5 g hg
    · rw [List.mem_singleton.mp hg]; exact o2

theorem txInformation_some (x : Lapm) (sup : Supply) (h : (txInformation x sup).1 = true) : (txInformation x sup).2.get ≠ (txInformation x sup).2.put := by
  unfold txInformation at h ⊢
  split at h
  · cases h
  · rename_i h1
    rw [if_neg h1]
    split at h
    · rename_i h2
      rw [if_pos h2]; exact h2
    · rename_i h2
      rw [if_neg h2]
      simp only at h ⊢
      generalize (if x.put + 1 ≥ 16 then 0 else x.put + 1) = nx at h ⊢
      split at h
      · cases h
      · rename_i h3
        rw [if_neg h3]
        split at h
        · cases h
        · cases h
        · intro h4
          exact h3 (Or.inl h4.symm)

theorem txInformation_ctrl (x : Lapm) (sup : Supply) : (txInformation x sup).2.ctrl = x.ctrl := by
  unfold txInformation
  repeat' split
  all_goals first
    | rfl
    | (simp only; repeat' split) <;> rfl

theorem inv_underflow (h : InvE x y xy yx) (sup : Supply) : InvE (underflow x sup).1 y (xy ++ (underflow x sup).2.toList) yx := by
  obtain ⟨lx, h⟩ := h
  unfold underflow
  split
  · rename_i f t hc
    exact ⟨_, inv_emit h hc⟩
  · rename_i hc
    split
    · simp only [Option.toList_none, List.append_nil]; exact ⟨_, h⟩
    · rename_i hst
      simp only [not_or] at hst
      have hst := Classical.not_not.mp hst.2.2
      have := h.loc.alive (Or.inl hst)
      subst this
      have hr : Inv true (if x.get = x.put then txInformation x sup else (true, x)).2 y xy yx ∧ ((if x.get = x.put then txInformation x sup else (true, x)).1 = true →
          (if x.get = x.put then txInformation x sup else (true, x)).2.get ≠ (if x.get = x.put then txInformation x sup else (true, x)).2.put) ∧
          (if x.get = x.put then txInformation x sup else (true, x)).2.ctrl = [] := by
        split
        · refine ⟨inv_txInformation h (by rw [hst]; simp) sup, txInformation_some x sup, ?_⟩
          rw [txInformation_ctrl]; exact hc
        · rename_i hne
          exact ⟨h, fun _ => hne, hc⟩
      generalize (if x.get = x.put then txInformation x sup else (true, x)) = r at hr ⊢
      obtain ⟨r1, r2, r3⟩ := hr
      simp only
      split
      · simp only [Option.toList_none, List.append_nil]; exact ⟨_, r1⟩
      · rename_i hok
        have he := inv_emitInfo r1 (r2 (by simpa using hok)) r3
        simp only [Option.toList_some]
        split
        · exact ⟨_, inv_t401Start he⟩
        · exact ⟨_, he⟩

theorem inv_expire (h : InvE x y xy yx) (hne : x.state ≠ .establish) (sup : Supply) : InvE (expire x sup).1 y (xy ++ (expire x sup).2.toList) yx := by
  obtain ⟨lx, h⟩ := h
  have ht := h.loc.timer
  have h' := inv_timerOff h
  have hidle : ∀ {z : Lapm} {lz : Bool}, Inv lz z y xy yx → Inv lz (report { z with state := .idle } .disconnected) y xy yx :=
    fun hz => inv_report (inv_state hz (Or.inr rfl)) (fun d hd => by injection hd)
  unfold expire
  split
  · simp only [Option.toList_none, List.append_nil]; exact ⟨_, h⟩
  · rename_i hn
    exact absurd hn ht
  · simp only [Option.toList_none, List.append_nil]
    unfold t401Expired
    split
    · simp only
      split
      · exact ⟨_, hidle (inv_retry h' 0)⟩
      · exact ⟨_, hidle (inv_retry h' 0)⟩
      · exact ⟨_, inv_disconnect (inv_retry h' 0)⟩
      · exact ⟨_, inv_retry h' 0⟩
    · simp only
      rw [if_neg (by rw [h.loc.conf]; simp)]
      have hfin : ∀ {z : Lapm} {lz : Bool}, Inv lz z y xy yx → InvE { z with timer := some .t401 } y xy yx := fun hz => ⟨_, inv_vars hz _ _ _ _ (by decide)⟩
      refine hfin (lz := lx) ?_
      split
      · rename_i hs
        exact absurd hs hne
      · exact inv_unnumbered (inv_retry h' _) _ (by decide)
      · rename_i hs
        have := h.loc.alive (Or.inl hs)
        subst this
        exact inv_supervisory (inv_retry h' _) _ (ready_or _) (by decide)
      · exact inv_retry h' _
  · simp only [Option.toList_none, List.append_nil]
    unfold t403Expired
    split
    · exact ⟨_, h'⟩
    · rename_i hs
      have hs := Classical.not_not.mp hs
      have := h.loc.alive (Or.inl hs)
      subst this
      exact ⟨_, inv_retry (inv_t401Start (inv_supervisory h' _ (ready_or _) (by decide))) 1⟩

theorem inv_busy (h : InvE x y xy yx) (b : Bool) : InvE (setLocalBusy x b) y xy yx := by
  obtain ⟨lx, h⟩ := h
  exact ⟨_, inv_vars h b _ _ _ h.loc.timer⟩

theorem InvE.swap (h : InvE x y xy yx) : InvE y x yx xy := by
  obtain ⟨lx, A, B, ly, h1, h2, h3, h4, h5, h6⟩ := h
  exact ⟨ly, B, A, lx, h2, h1, h4, h3, h6, h5⟩

/-- Anything which happens on a side. -/
theorem inv_act (h : InvE x y xy yx) (e : Act) (he : (∃ sup, e = .expire sup) → x.state ≠ .establish) : ∃ r, act x yx e = some r ∧ InvE r.1 y (xy ++ r.2.2) r.2.1 := by
  cases e with
  | send sup => exact ⟨_, rfl, inv_underflow h sup⟩
  | expire sup => exact ⟨_, rfl, inv_expire h (he ⟨sup, rfl⟩) sup⟩
  | receive sup =>
    cases yx with
    | nil => exact ⟨_, rfl, by simpa using h⟩
    | cons f t =>
      obtain ⟨x', h1, h2⟩ := inv_receive h sup
      exact ⟨(x', t, []), by simp only [act, h1, Option.map_some], by simpa using h2⟩
  | lose =>
    refine ⟨_, rfl, ?_⟩
    obtain ⟨lx, h⟩ := h
    cases yx with
    | nil => exact ⟨lx, by simpa using h⟩
    | cons f t => exact ⟨lx, by simpa using inv_pop h⟩
  | busy b => exact ⟨_, rfl, by simpa using inv_busy h b⟩
  | stop =>
    obtain ⟨lx, h⟩ := h
    exact ⟨_, rfl, lx, by simpa using inv_stop h⟩

end

theorem inv_step {l : Link} (h : InvE l.a l.b l.ab l.ba) (e : Bool × Act) (he : (∃ sup, e.2 = .expire sup) → (l.side e.1).state ≠ .establish) :
    ∃ l', step l e = some l' ∧ InvE l'.a l'.b l'.ab l'.ba := by
  obtain ⟨side, e⟩ := e
  cases side with
  | true =>
    obtain ⟨r, h1, h2⟩ := inv_act h e he
    exact ⟨⟨r.1, l.b, l.ab ++ r.2.2, r.2.1⟩, by simp only [step, h1, Option.map_some], h2⟩
  | false =>
    obtain ⟨r, h1, h2⟩ := inv_act h.swap e he
    exact ⟨⟨l.a, r.1, r.2.1, l.ba ++ r.2.2⟩, by simp only [step, h1, Option.map_some], h2.swap⟩

theorem inv_run : ∀ (evs : List (Bool × Act)) {l : Link}, InvE l.a l.b l.ab l.ba → Calm l evs → ∃ l', run l evs = some l' ∧ InvE l'.a l'.b l'.ab l'.ba := by
  intro evs
  induction evs with
  | nil => intro l h _; exact ⟨l, rfl, h⟩
  | cons e t ih =>
    intro l h hc
    rw [Calm] at hc
    obtain ⟨l1, h1, h2⟩ := inv_step h e hc.1
    obtain ⟨l2, h3, h4⟩ := ih h2 (hc.2 l1 h1)
    exact ⟨l2, by rw [run, h1]; exact h3, h4⟩

theorem fresh_loc {x : Lapm} (h : Fresh x) : Loc true x := by
  refine ⟨h.conf, h.window, h.timer, ?_, fun _ => rfl, fun _ => ⟨h.taken, h.delivered⟩⟩
  intro f hf
  rcases h.ctrl with hc | hc <;> rw [hc] at hf
  · cases hf
  · rw [List.mem_singleton.mp hf]
    exact ⟨by unfold GoodF; simp only; decide, rfl⟩

theorem fresh_dir {x y : Lapm} (hx : Fresh x) (hy : Fresh y) : Dir 0 true true x y [] [] := by
  obtain ⟨v1, v2, v3, v4, v5, v6⟩ := hx.vars
  obtain ⟨w1, w2, w3, w4, w5, w6⟩ := hy.vars
  refine ⟨fun _ => ⟨0, Nat.le_refl _, Nat.zero_le _, v2, v1, v6, v5, ?_, ?_⟩, ?_, ?_, ?_, trivial, ?_⟩
  · rw [v4, hx.taken]; rfl
  · rw [hx.taken]; intro i _ hi; cases hi
  · rw [hx.taken, hy.delivered]; simp
  · rw [hx.taken, hy.delivered]; rfl
  · intro _; rw [w3, hy.delivered]; rfl
  · rw [hy.delivered]
    rcases hy.ctrl with hc | hc <;> rw [hc]
    · exact Nat.le_refl 0
    · exact Nat.le_refl 0

theorem start_inv {l : Link} (h : Start l) : InvE l.a l.b l.ab l.ba := by
  obtain ⟨h1, h2⟩ := h.line
  rw [h1, h2]
  exact ⟨true, 0, 0, true, fresh_dir h.a h.b, fresh_dir h.b h.a, fresh_loc h.a, fresh_loc h.b, fun f hf => (by cases hf), fun f hf => (by cases hf)⟩

end V42
