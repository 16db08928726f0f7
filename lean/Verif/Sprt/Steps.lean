import Verif.Sprt.Inv

/-!
# Everything an endpoint does keeps the invariant
-/

namespace Sprt

set_option linter.unusedSimpArgs false
set_option linter.unusedVariables false

theorem Inv.change {T T' : Bool → Nat → TxChan} {R R' : Bool → Nat → RxChan} {Q Q' : Bool → List Nat} {Λ : Log} {P P' : Has}
    (h : Inv T R Q Λ P) (hdir : ∀ x c, Rel c → Dir (T' x c) (R' (!x) c) (given x c Λ) (got (!x) c Λ))
    (hhas : ∀ x c a, Rel c → Received (R' x c) (got x c Λ).length a → P' x c a)
    (hq : ∀ x, QOk (P' x) (Q' x)) (hs : ∀ x, (Q' x).length ≤ 3)
    (hb : ∀ x c, (R' x c).baseSeq < 16384) (hm : ∀ y c a, Rel c → P y c a → P' y c a) : Inv T' R' Q' Λ P' := by
  have e : Λ ++ [] = Λ := List.append_nil _
  have := h.next (T' := T') (R' := R') (Q' := Q') (P' := P') [] (by rw [e]; exact hdir) (by rw [e]; exact hhas) hq hs hb hm
    (by intro x c _ g hg; simp [got] at hg)
    (by
      intro k y pkt hk hs
      rw [e, List.getElem?_eq_none hk] at hs
      cases hs)
  rw [e] at this
  exact this

/-- One more. -/
def plus (P : Has) (x : Bool) (c a : Nat) : Has := fun y d b => P y d b ∨ (y = x ∧ d = c ∧ b = a)

theorem plus_self {P : Has} {x : Bool} {c a : Nat} (h : P x c a) : plus P x c a = P := by
  funext y d b
  unfold plus
  refine propext ⟨?_, Or.inl⟩
  rintro (h1 | ⟨rfl, rfl, rfl⟩)
  · exact h1
  · exact h

theorem got_other (x : Bool) (c : Nat) (g : Log) (e : Ep) : got (!x) c (logOf x g e) = got (!x) c g := by
  unfold logOf
  rw [got_append]
  have : got (!x) c (e.acts.map fun a => (x, a)) = [] := by
    unfold got
    rw [List.filterMap_eq_nil_iff]
    intro r hr
    obtain ⟨a, -, rfl⟩ := List.mem_map.mp hr
    cases a <;> simp
  rw [this, List.append_nil]

theorem given_other (x : Bool) (c : Nat) (g : Log) (e : Ep) : given (!x) c (logOf x g e) = given (!x) c g := by
  unfold logOf
  rw [given_append]
  have : given (!x) c (e.acts.map fun a => (x, a)) = [] := by
    unfold given
    rw [List.filterMap_eq_nil_iff]
    intro r hr
    obtain ⟨a, -, rfl⟩ := List.mem_map.mp hr
    cases a <;> simp
  rw [this, List.append_nil]

/-! ## The acknowledgements -/

theorem queueAckEntry_frame (e : Ep) (c seq now : Nat) :
    (queueAckEntry e c seq now).tx = e.tx ∧ (queueAckEntry e c seq now).rx = e.rx
      ∧ ∀ x g y d, got y d (logOf x g (queueAckEntry e c seq now)) = got y d (logOf x g e)
        ∧ given y d (logOf x g (queueAckEntry e c seq now)) = given y d (logOf x g e) := by
  unfold queueAckEntry
  split
  · exact ⟨rfl, rfl, fun _ _ _ _ => ⟨rfl, rfl⟩⟩
  · simp only
    split
    · refine ⟨by simp, by simp, fun x g y d => ?_⟩
      simp [logOf]
    · split
      · refine ⟨by rw [buildSend_tx], by rw [buildSend_rx], fun x g y d => ?_⟩
        rw [logOf_buildSend, got_sent, given_sent]; exact ⟨rfl, rfl⟩
      · exact ⟨rfl, rfl, fun _ _ _ _ => ⟨rfl, rfl⟩⟩

theorem queueAck_frame (e : Ep) (c seq now : Nat) :
    (queueAck e c seq now).tx = e.tx ∧ (queueAck e c seq now).rx = e.rx
      ∧ ∀ x g y d, got y d (logOf x g (queueAck e c seq now)) = got y d (logOf x g e)
        ∧ given y d (logOf x g (queueAck e c seq now)) = given y d (logOf x g e) := by
  unfold queueAck
  obtain ⟨h1, h2, h3⟩ := queueAckEntry_frame (if e.ackQueue.length ≥ 3 then buildSend e c 0 [] else e) c seq now
  rw [h1, h2]
  split
  · next h =>
    rw [if_pos h] at h3
    refine ⟨by rw [buildSend_tx], by rw [buildSend_rx], fun x g y d => ?_⟩
    rw [(h3 x g y d).1, (h3 x g y d).2, logOf_buildSend, got_sent, given_sent]; exact ⟨rfl, rfl⟩
  · next h =>
    rw [if_neg h] at h3
    exact ⟨rfl, rfl, h3⟩

/-- The queue before it is full. -/
theorem Hold.queueAckEntry {f : Ep} {x : Bool} {g : Log} {e : Ep} (h : Hold f x g e) {c : Nat} (hc : Rel c) (a now : Nat)
    (hlen : e.ackQueue.length ≤ 2) (hlow : (got x c (logOf x g e)).length ≤ a + 7095)
    (hhigh : a < (got x c (logOf x g e)).length + 96) :
    HoldP f x g (plus (has f x g e) x c a) (Sprt.queueAckEntry e c (a % 16384) now) := by
  have hc4 : c ≤ 2 := by rcases hc with h | h <;> omega
  have ham := Nat.mod_lt a (show 0 < 16384 by decide)
  have hdiv : (c * 16384 + a % 16384) / 16384 = c := by omega
  have hmod : (c * 16384 + a % 16384) % 16384 = a % 16384 := by omega
  have hq := h.queue x
  rw [pick_same] at hq
  have hwin : ∀ b, has f x g e x c b → b < (got x c (logOf x g e)).length + 96 := by
    intro b hb
    have hw := (h.dir (!x) c hc).rcv.w.2
    rw [Bool.not_not, pick_same] at hw
    unfold has at hb
    rw [pick_same] at hb
    exact hb.lt hw
  have hR1 : ∀ n, n < (got x c (logOf x g e)).length → has f x g e x c n := fun n hn => Or.inl hn
  unfold Sprt.queueAckEntry
  split
  · next hmem =>
    obtain ⟨j, hj⟩ := List.mem_iff_getElem?.mp hmem
    obtain ⟨-, b, k2, k3, k4⟩ := hq j _ hj
    rw [hdiv] at k3 k4
    rw [hmod] at k2
    have hb1 := hwin b k3
    have : b = a := by
      rcases Nat.eq_zero_or_pos (got x c (logOf x g e)).length with h0 | h0
      · omega
      · have := k4 _ (hR1 ((got x c (logOf x g e)).length - 1) (by omega))
        omega
    rw [plus_self (by rw [← this]; exact k3)]
    exact h
  · next hmem =>
    simp only
    have key : HoldP f x g (plus (has f x g e) x c a) { e with ackQueue := e.ackQueue ++ [c * 16384 + a % 16384] } := by
      refine Inv.change h h.dir ?_ ?_ ?_ h.base (fun _ _ _ _ h => Or.inl h)
      · intro y d b hd hb
        exact Or.inl (h.has y d b hd hb)
      · refine two x ?_ ?_
        · rw [pick_same]
          intro j v hv
          rcases Nat.lt_or_ge j e.ackQueue.length with hj | hj
          · rw [List.getElem?_append_left hj] at hv
            obtain ⟨k1, b, k2, k3, k4⟩ := hq j v hv
            refine ⟨k1, b, k2, Or.inl k3, ?_⟩
            intro b' hb'
            rw [List.length_append, List.length_singleton]
            rcases hb' with hb' | ⟨-, h1, h2⟩
            · have := k4 b' hb'
              omega
            · rw [h1] at k4
              rw [h2]
              rcases Nat.eq_zero_or_pos (got x c (logOf x g e)).length with h0 | h0
              · omega
              · have := k4 _ (hR1 ((got x c (logOf x g e)).length - 1) (by omega))
                omega
          · have hj' : j = e.ackQueue.length := by
              have := (List.getElem?_eq_some_iff.mp hv).1
              simp at this; omega
            rw [hj'] at hv
            simp at hv
            subst hv
            rw [hdiv, hmod]
            refine ⟨hc, a, rfl, Or.inr ⟨rfl, rfl, rfl⟩, ?_⟩
            intro b' hb'
            rcases hb' with hb' | ⟨-, -, h2⟩
            · have := hwin b' hb'
              omega
            · omega
        · have := h.queue (!x)
          rw [pick_not] at *
          intro j v hv
          obtain ⟨k1, b, k2, k3, k4⟩ := this j v hv
          refine ⟨k1, b, k2, Or.inl k3, ?_⟩
          intro b' hb'
          rcases hb' with hb' | ⟨h1, -, -⟩
          · exact k4 b' hb'
          · cases x <;> cases h1
      · refine two x ?_ ?_
        · rw [pick_same]; simp; omega
        · have := h.short (!x)
          rw [pick_not] at *; exact this
    split
    · exact key.congr (by simp) (by simp) (by simp) (by simp)
    · split
      · exact key.ackOnly (by omega)
      · exact key

/-- An acknowledgement is queued for a payload which the endpoint has, or is about to have. -/
theorem Hold.queueAck {f : Ep} {x : Bool} {g : Log} {e : Ep} (h : Hold f x g e) {c : Nat} (hc : Rel c) (a now : Nat)
    (hlow : (got x c (logOf x g e)).length ≤ a + 7095) (hhigh : a < (got x c (logOf x g e)).length + 96) :
    HoldP f x g (plus (has f x g e) x c a) (Sprt.queueAck e c (a % 16384) now) := by
  unfold Sprt.queueAck
  split
  · next hl =>
    have h1 : Hold f x g (buildSend e c 0 []) := by
      unfold Hold
      rw [has_buildSend]
      exact HoldP.ackOnly h (by rcases hc with h | h <;> omega)
    have := h1.queueAckEntry hc a now (by rw [buildSend_q]; simp) (by rw [logOf_buildSend, got_sent]; exact hlow)
      (by rw [logOf_buildSend, got_sent]; exact hhigh)
    rw [has_buildSend] at this
    exact this
  · next hl =>
    exact h.queueAckEntry hc a now (by omega) hlow hhigh

theorem upd_same {α : Type} (f : Nat → α) (i : Nat) (v : α) : upd f i v i = v := by simp [upd]
theorem upd_other {α : Type} (f : Nat → α) {i j : Nat} (v : α) (h : j ≠ i) : upd f i v j = f j := by simp [upd, h]
theorem upd_upd {α : Type} (f : Nat → α) (i : Nat) (v w : α) : upd (upd f i v) i w = upd f i w := by
  funext j; unfold upd; split <;> rfl

/-! ## The receiver -/

/-- A payload is stored. -/
theorem HoldP.store {f : Ep} {x : Bool} {g : Log} {e : Ep} {c a : Nat} {p : List Nat} (hc : Rel c)
    (h : HoldP f x g (plus (has f x g e) x c a) e) (hR : (got x c (logOf x g e)).length ≤ a)
    (ha : a < (got x c (logOf x g e)).length + (e.rx c).window) (hp : (given (!x) c g)[a]? = some p) (r' : RxChan)
    (hw : r'.window = (e.rx c).window) (hb : r'.buf = upd (e.rx c).buf (a % (e.rx c).window) (some p))
    (hq : r'.baseSeq = (e.rx c).baseSeq) (hi : r'.inPtr = (e.rx c).inPtr) : Hold f x g (e.setRx c r') := by
  have hdir := h.dir (!x) c hc
  rw [Bool.not_not, pick_same, pick_not, given_other] at hdir
  have hP : has f x g (e.setRx c r') = plus (has f x g e) x c a := by
    funext y d b
    unfold plus has
    show Received (pick x (upd e.rx c r') f.rx y d) (got y d (logOf x g e)).length b = _
    apply propext
    revert y
    refine two x ?_ ?_
    · rw [pick_same, pick_same]
      by_cases hd : d = c
      · subst hd
        rw [upd_same]
        constructor
        · intro hh
          rcases received_store_inv (by have := hdir.rcv.w; omega) hw hb hR ha hh with h1 | h1
          · exact Or.inl h1
          · exact Or.inr ⟨rfl, rfl, h1⟩
        · rintro (h1 | ⟨-, -, h1⟩)
          · exact received_store hw hb h1
          · rw [h1]; exact received_stored hw hb ha
      · rw [upd_other _ _ hd]
        exact ⟨Or.inl, fun h => h.elim id (fun h => absurd h.2.1 hd)⟩
    · rw [pick_not, pick_not]
      exact ⟨Or.inl, fun h => h.elim id (fun h => by cases x <;> cases h.1)⟩
  unfold Hold
  rw [hP]
  refine Inv.change h ?_ ?_ h.queue h.short ?_ (fun _ _ _ _ h => h)
  · intro y d hd
    have h0 := h.dir y d hd
    show Dir (pick x e.tx f.tx y d) (pick x (upd e.rx c r') f.rx (!y) d) (given y d (logOf x g e)) (got (!y) d (logOf x g e))
    revert y
    refine two x ?_ ?_
    · intro h0
      simpa using h0
    · intro h0
      rw [Bool.not_not, pick_not, pick_same] at *
      by_cases hdc : d = c
      · subst hdc
        rw [upd_same, given_other]
        exact hdir.store hR ha hp r' hw hb hq hi
      · rw [upd_other _ _ hdc]; exact h0
  · intro y d b hd hb'
    have : has f x g (e.setRx c r') y d b := hb'
    rw [hP] at this
    exact this
  · intro y d
    have := h.base y d
    show (pick x (upd e.rx c r') f.rx y d).baseSeq < 16384
    revert y
    refine two x ?_ ?_
    · intro this
      rw [pick_same] at *
      by_cases hdc : d = c
      · subst hdc; rw [upd_same, hq]; exact this
      · rw [upd_other _ _ hdc]; exact this
    · intro this
      rw [pick_not] at *; exact this

theorem given_delivered (y x : Bool) (c d n : Nat) (l : Log) (p : List Nat) :
    given y c (l ++ [(x, .delivered d n p)]) = given y c l := by
  rw [given_append]; simp [given]

theorem no_sent {Λ : Log} {x : Bool} {a : Act} (ha : ∀ pkt, a ≠ .sent pkt) {k : Nat} {y : Bool} {pkt : List Nat} (hk : Λ.length ≤ k)
    (hs : (Λ ++ [(x, a)])[k]? = some (y, .sent pkt)) : False := by
  rw [List.getElem?_append_right hk] at hs
  rcases hd : k - Λ.length with _ | m
  · rw [hd] at hs
    simp at hs
    exact ha _ hs.2
  · rw [hd] at hs; simp at hs

/-- The next payload is delivered. -/
theorem HoldP.deliver {f : Ep} {x : Bool} {g : Log} {e : Ep} {c : Nat} {p : List Nat} (hc : Rel c)
    (h : HoldP f x g (plus (has f x g e) x c (got x c (logOf x g e)).length) e)
    (hp : (given (!x) c g)[(got x c (logOf x g e)).length]? = some p) (r' : RxChan) (hw : r'.window = (e.rx c).window)
    (hb : r'.buf = upd (e.rx c).buf (e.rx c).inPtr none) (hq : r'.baseSeq = ((e.rx c).baseSeq + 1) % 16384)
    (hi : r'.inPtr = if (e.rx c).inPtr + 1 ≥ (e.rx c).window then 0 else (e.rx c).inPtr + 1) :
    Hold f x g ((e.setRx c r').emit (.delivered c (e.rx c).baseSeq p)) := by
  have hdir := h.dir (!x) c hc
  rw [Bool.not_not, pick_same, pick_not, given_other] at hdir
  have hgot : ∀ y d, got y d (logOf x g e ++ [(x, .delivered c (e.rx c).baseSeq p)])
      = got y d (logOf x g e) ++ if x = y ∧ c = d then [((e.rx c).baseSeq, p)] else [] := by
    intro y d
    rw [got_append, got_singleton]
  have hbuf : r'.buf = upd (e.rx c).buf ((got x c (logOf x g e)).length % (e.rx c).window) none := by
    rw [hb, hdir.rcv.inp]
  have hw0 : 0 < (e.rx c).window := by have := hdir.rcv.w; omega
  have hlog : logOf x g ((e.setRx c r').emit (.delivered c (e.rx c).baseSeq p))
      = logOf x g e ++ [(x, .delivered c (e.rx c).baseSeq p)] := logOf_emit x g (e.setRx c r') _
  have hxx : ∀ d : Nat, ¬ (x = !x ∧ c = d) := by intro d hh; cases x <;> cases hh.1
  have hP : has f x g ((e.setRx c r').emit (.delivered c (e.rx c).baseSeq p))
      = plus (has f x g e) x c (got x c (logOf x g e)).length := by
    funext y d b
    unfold plus has
    rw [hlog, hgot]
    show Received (pick x (upd e.rx c r') f.rx y d) _ b = _
    apply propext
    revert y
    refine two x ?_ ?_
    · rw [pick_same, pick_same]
      by_cases hd : d = c
      · subst hd
        rw [upd_same, if_pos ⟨rfl, rfl⟩, List.length_append, List.length_singleton,
          received_deliver hw0 hw hbuf]
        simp
      · rw [upd_other _ _ hd, if_neg (fun h => hd h.2.symm), List.append_nil]
        exact ⟨Or.inl, fun h => h.elim id (fun h => absurd h.2.1 hd)⟩
    · rw [pick_not, pick_not, if_neg (hxx d), List.append_nil]
      exact ⟨Or.inl, fun h => h.elim id (fun h => by cases x <;> cases h.1)⟩
  unfold Hold
  rw [hP]
  unfold HoldP
  rw [hlog]
  refine Inv.next h _ ?_ ?_ h.queue h.short ?_ (fun _ _ _ _ h => h) ?_ ?_
  · intro y d hd
    have h0 := h.dir y d hd
    rw [given_delivered, hgot]
    show Dir (pick x e.tx f.tx y d) (pick x (upd e.rx c r') f.rx (!y) d) (given y d (logOf x g e)) _
    revert y
    refine two x ?_ ?_
    · intro h0
      rw [if_neg (hxx d), List.append_nil]
      simpa using h0
    · intro h0
      rw [Bool.not_not, pick_not, pick_same] at *
      by_cases hdc : d = c
      · subst hdc
        rw [upd_same, given_other, if_pos ⟨rfl, rfl⟩]
        exact hdir.deliver hp r' hw hb hq hi
      · rw [upd_other _ _ hdc, if_neg (fun h => hdc h.2.symm), List.append_nil]; exact h0
  · intro y d b hd hb'
    have : has f x g ((e.setRx c r').emit (.delivered c (e.rx c).baseSeq p)) y d b := by
      unfold has
      rw [hlog]; exact hb'
    rw [hP] at this
    exact this
  · intro y d
    have := h.base y d
    show (pick x (upd e.rx c r') f.rx y d).baseSeq < 16384
    revert y
    refine two x ?_ ?_
    · intro this
      rw [pick_same] at *
      by_cases hdc : d = c
      · subst hdc; rw [upd_same, hq]; omega
      · rw [upd_other _ _ hdc]; exact this
    · intro this
      rw [pick_not] at *; exact this
  · intro y d hd r hr
    exfalso
    rw [got_singleton] at hr
    split at hr
    · next hh => rw [← hh.2] at hd; exact hd hc
    · simp at hr
  · intro k y pkt hk hs
    exact (no_sent (by intro _ h; cases h) hk hs).elim

end Sprt
