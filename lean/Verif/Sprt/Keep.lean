import Verif.Sprt.Steps

/-!
# Everything an endpoint does keeps the invariant: the functions
-/

namespace Sprt

set_option linter.unusedSimpArgs false
set_option linter.unusedVariables false

/-! ## Delivery -/

/-- The endpoint with the place which the delivery has come to. -/
def at' (e : Ep) (c i : Nat) : Ep := e.setRx c { e.rx c with inPtr := i }

theorem at'_self (e : Ep) (c : Nat) : at' e c (e.rx c).inPtr = e := by
  unfold at' Ep.setRx
  have : upd e.rx c { e.rx c with inPtr := (e.rx c).inPtr } = e.rx := by
    funext j; unfold upd; split
    · next h => rw [h]
    · rfl
  rw [this]

theorem at'_rx (e : Ep) (c i : Nat) : (at' e c i).rx c = { e.rx c with inPtr := i } := upd_same _ _ _

theorem at'_log (x : Bool) (g : Log) (e : Ep) (c i : Nat) : logOf x g (at' e c i) = logOf x g e := rfl

/-- The payload at the head of the buffer is the next one. -/
theorem Hold.head {f : Ep} {x : Bool} {g : Log} {e : Ep} (h : Hold f x g e) {c : Nat} (hc : Rel c) {p : List Nat}
    (hp : (e.rx c).buf (e.rx c).inPtr = some p) :
    (given (!x) c g)[(got x c (logOf x g e)).length]? = some p ∧ has f x g e x c (got x c (logOf x g e)).length := by
  have hdir := h.dir (!x) c hc
  rw [Bool.not_not, pick_same, pick_not, given_other] at hdir
  have hw := hdir.rcv.w
  rw [hdir.rcv.inp] at hp
  refine ⟨hdir.rcv.slot 0 (by omega) p hp, ?_⟩
  unfold has
  rw [pick_same]
  exact Or.inr ⟨by omega, by rw [hp]; rfl⟩

theorem Hold.deliverLoop {f : Ep} {x : Bool} {g : Log} {c : Nat} (hc : Rel c) : ∀ n e i app e' i' app',
    Hold f x g (at' e c i) → Sprt.deliverLoop c n e i app = some (e', i', app') → Hold f x g (at' e' c i') := by
  intro n
  induction n with
  | zero => intro e i app e' i' app' _ h; cases h
  | succ n ih =>
    intro e i app e' i' app' h hd
    unfold Sprt.deliverLoop at hd
    simp only at hd
    split at hd
    · split at hd
      · cases hd; exact h
      · next p hp =>
        split at hd
        · cases hd; exact h
        · refine ih _ _ _ _ _ _ ?_ hd
          have hp' : ((at' e c i).rx c).buf ((at' e c i).rx c).inPtr = some p := by rw [at'_rx]; exact hp
          obtain ⟨k1, k2⟩ := h.head hc hp'
          have := HoldP.deliver hc (by rw [plus_self k2]; exact h) k1
            { e.rx c with
              baseSeq := ((e.rx c).baseSeq + 1) % 16384, buf := upd (e.rx c).buf i none, busy := app.headD false
              inPtr := if i + 1 ≥ (e.rx c).window then 0 else i + 1 }
            (by rw [at'_rx]) (by rw [at'_rx]) (by rw [at'_rx]) (by rw [at'_rx])
          rw [at'_rx] at this
          refine this.congr rfl ?_ rfl rfl
          show upd (upd _ _ _) _ _ = upd (upd _ _ _) _ _
          rw [upd_upd, upd_upd]
          congr 1
          show RxChan.mk _ _ _ _ _ _ = _
          simp only [Ep.emit, Ep.setRx, upd_same]
    · cases hd

theorem Hold.deliverChan {f : Ep} {x : Bool} {g : Log} {c : Nat} (hc : Rel c) {e : Ep} {i : Nat} {app : List Bool}
    {r : Ep × List Bool} (h : Hold f x g (at' e c i)) (hd : Sprt.deliverChan e c i app = some r) : Hold f x g r.1 := by
  unfold Sprt.deliverChan at hd
  rcases hl : Sprt.deliverLoop c 98 e i app with _ | ⟨e', i', app'⟩
  · rw [hl] at hd; cases hd
  · rw [hl] at hd
    cases hd
    exact Hold.deliverLoop hc _ _ _ _ _ _ _ h hl

theorem Hold.deliver {f : Ep} {x : Bool} {g : Log} {e : Ep} {app : List Bool} {r : Ep × List Bool} (h : Hold f x g e)
    (hd : Sprt.deliver e app = some r) : Hold f x g r.1 := by
  unfold Sprt.deliver at hd
  rcases hl : Sprt.deliverChan e 1 (e.rx 1).inPtr app with _ | r1
  · rw [hl] at hd; cases hd
  · rw [hl] at hd
    have h1 := Hold.deliverChan (Or.inl rfl) (by rw [at'_self]; exact h) hl
    exact Hold.deliverChan (Or.inr rfl) (by rw [at'_self]; exact h1) hd

theorem Hold.status {f : Ep} {x : Bool} {g : Log} {e : Ep} (h : Hold f x g e) (n : Nat) : Hold f x g (e.emit (.status n)) := by
  unfold Hold
  rw [has_congr (f := f) (x := x) (g := g) (e := e) (e' := e.emit (.status n)) rfl (by intro y c; rw [logOf_emit, got_status])]
  exact HoldP.status h n

theorem has_queueAck (f : Ep) (x : Bool) (g : Log) (e : Ep) (c seq now : Nat) :
    has f x g (queueAck e c seq now) = has f x g e :=
  has_congr (queueAck_frame e c seq now).2.1 (fun y d => ((queueAck_frame e c seq now).2.2 x g y d).1)

/-- The next payload in sequence comes. -/
theorem Hold.rxNext {f : Ep} {x : Bool} {g : Log} {e e' : Ep} {c : Nat} {p : List Nat} {now : Nat} {app : List Bool} (h : Hold f x g e)
    (hc : Rel c) (hp : (given (!x) c g)[(got x c (logOf x g e)).length]? = some p)
    (hr : Sprt.rxNext e c (e.rx c).baseSeq p now app = some e') : Hold f x g e' := by
  have hdir := h.dir (!x) c hc
  rw [Bool.not_not, pick_same, pick_not, given_other] at hdir
  have hw := hdir.rcv.w
  have hseq := hdir.rcv.seq
  have hq := h.queueAck hc (got x c (logOf x g e)).length now (by omega) (by omega)
  rw [hseq] at hr
  unfold Sprt.rxNext at hr
  obtain ⟨f1, f2, f3⟩ := queueAck_frame e c ((got x c (logOf x g e)).length % 16384) now
  have hgl := (f3 x g x c).1
  rw [← has_queueAck f x g e c ((got x c (logOf x g e)).length % 16384) now] at hq
  simp only at hr
  rw [← hgl] at hp hseq
  generalize heq : Sprt.queueAck e c ((got x c (logOf x g e)).length % 16384) now = e1 at *
  rw [← hgl] at hq
  have hrx : e1.rx c = e.rx c := by rw [f2]
  split at hr
  · split at hr
    · cases hr
      refine HoldP.store hc hq (Nat.le_refl _) (by rw [hrx]; omega) hp _ rfl ?_ rfl rfl
      show upd _ _ _ = upd _ _ _
      rw [hrx, hdir.rcv.inp, hgl]
    · rcases hl : Sprt.deliverChan ((e1.setRx c { e1.rx c with
          baseSeq := ((e1.rx c).baseSeq + 1) % 16384, buf := upd (e1.rx c).buf (e1.rx c).inPtr none, busy := app.headD false }).emit
          (.delivered c ((got x c (logOf x g e)).length % 16384) p))
        c (if (e1.rx c).inPtr + 1 ≥ (e1.rx c).window then 0 else (e1.rx c).inPtr + 1) app.tail with _ | r
      · rw [hl] at hr; cases hr
      · rw [hl] at hr
        cases hr
        refine Hold.deliverChan hc ?_ hl
        have := HoldP.deliver hc hq hp { e1.rx c with
          baseSeq := ((e1.rx c).baseSeq + 1) % 16384, buf := upd (e1.rx c).buf (e1.rx c).inPtr none, busy := app.headD false
          inPtr := if (e1.rx c).inPtr + 1 ≥ (e1.rx c).window then 0 else (e1.rx c).inPtr + 1 } rfl rfl rfl rfl
        refine this.congr rfl ?_ rfl ?_
        · show upd (upd _ _ _) _ _ = upd _ _ _
          rw [upd_upd]
          congr 1
          show RxChan.mk _ _ _ _ _ _ = _
          simp only [Ep.emit, Ep.setRx, upd_same]
        · show _ ++ _ = _ ++ _
          rw [hrx, hseq, hgl]
          rfl
  · cases hr

/-- A payload which is not the next comes. -/
theorem Hold.rxOther {f : Ep} {x : Bool} {g : Log} {e e' : Ep} {c : Nat} {p : List Nat} {now : Nat} (h : Hold f x g e)
    (hc : Rel c) {a : Nat} (hp : (given (!x) c g)[a]? = some p) (hfresh : (given (!x) c g).length ≤ a + 7095)
    (hr : Sprt.rxOther e c (a % 16384) p now = some e') : Hold f x g e' := by
  have hdir := h.dir (!x) c hc
  rw [Bool.not_not, pick_same, pick_not, given_other] at hdir
  have hw := hdir.rcv.w
  have hseq := hdir.rcv.seq
  have hle := hdir.rcv.le
  have hah := hdir.ahead
  have hal : a < (given (!x) c g).length := (List.getElem?_eq_some_iff.mp hp).1
  obtain ⟨f1, f2, f3⟩ := queueAck_frame e c (a % 16384) now
  have hgl := (f3 x g x c).1
  have hrx : (Sprt.queueAck e c (a % 16384) now).rx c = e.rx c := by rw [f2]
  unfold Sprt.rxOther at hr
  simp only at hr
  rw [hseq] at hr
  split at hr
  · next hd =>
    have hRa : (got x c (logOf x g e)).length ≤ a := by omega
    have hda : (a % 16384 + 16384 - (got x c (logOf x g e)).length % 16384) % 16384 = a - (got x c (logOf x g e)).length := by omega
    rw [hda] at hd hr
    have hslot : (if (e.rx c).inPtr + (a - (got x c (logOf x g e)).length) ≥ (e.rx c).window then
        (e.rx c).inPtr + (a - (got x c (logOf x g e)).length) - (e.rx c).window
        else (e.rx c).inPtr + (a - (got x c (logOf x g e)).length)) = a % (e.rx c).window := by
      rw [hdir.rcv.inp, add_mod' hd]
      congr 1; omega
    rw [hslot] at hr
    have hq := h.queueAck hc a now (by omega) (by omega)
    split at hr
    · cases hr
      rw [← has_queueAck f x g e c (a % 16384) now] at hq
      refine HoldP.store hc hq (by rw [hgl]; exact hRa) (by rw [hgl, hrx]; omega) hp _ rfl ?_ rfl rfl
      show upd _ _ _ = upd _ _ _
      rw [hrx]
    · cases hr
  · next hd =>
    split at hr
    · next hfar =>
      have hRa : a < (got x c (logOf x g e)).length := by
        apply Classical.byContradiction
        intro hn
        have hda : (a % 16384 + 16384 - (got x c (logOf x g e)).length % 16384) % 16384
          = a - (got x c (logOf x g e)).length := by omega
        omega
      have hq := h.queueAck hc a now (by omega) (by omega)
      have hin : has f x g e x c a := Or.inl hRa
      rw [plus_self hin, ← has_queueAck f x g e c (a % 16384) now] at hq
      cases hr
      exact Hold.status hq 3
    · cases hr; exact h

/-! ## The sender -/

/-- All that matters of a sender's channel is the same. -/
def SameTx (s s' : TxChan) : Prop :=
  s'.window = s.window ∧ s'.buf = s.buf ∧ s'.queueSeq = s.queueSeq ∧ s'.inPtr = s.inPtr ∧ s'.outPtr = s.outPtr

theorem Dir.same {s s' : TxChan} {r : RxChan} {L : List (List Nat)} {G : List (Nat × List Nat)} (h : Dir s r L G) (hs : SameTx s s') :
    Dir s' r L G := by
  obtain ⟨h1, h2, h3, h4, h5⟩ := hs
  obtain ⟨O, k, kr⟩ := h.snd
  refine ⟨h.got, h.rcv, O, ⟨by rw [h1]; exact k.w, by rw [h3]; exact k.seq, by rw [h4, h1]; exact k.inp, by rw [h5, h1]; exact k.outp,
    k.le, by rw [h1]; exact k.room, by rw [h1, h2]; exact k.slot, by rw [h1, h2]; exact k.free, by rw [h1, h2]; exact k.front⟩, ?_⟩
  rw [h1, h2]; exact kr

/-- The sender's channel changes. -/
theorem Hold.setTx {f : Ep} {x : Bool} {g : Log} {e : Ep} (h : Hold f x g e) (c : Nat) (s : TxChan)
    (hs : Rel c → ∀ r L G, Dir (e.tx c) r L G → r = f.rx c → L = given x c (logOf x g e) → G = got (!x) c g → Dir s r L G) :
    Hold f x g (e.setTx c s) := by
  have hP : has f x g (e.setTx c s) = has f x g e := has_congr rfl (fun _ _ => rfl)
  unfold Hold
  rw [hP]
  refine Inv.change h ?_ h.has h.queue h.short h.base (fun _ _ _ _ h => h)
  intro y d hd
  have h0 := h.dir y d hd
  show Dir (pick x (upd e.tx c s) f.tx y d) (pick x e.rx f.rx (!y) d) (given y d (logOf x g e)) (got (!y) d (logOf x g e))
  revert y
  refine two x ?_ ?_
  · intro h0
    rw [pick_same, pick_not] at *
    by_cases hdc : d = c
    · subst hdc
      rw [upd_same]
      rw [got_other] at *
      exact hs hd _ _ _ h0 rfl rfl rfl
    · rw [upd_other _ _ hdc]; exact h0
  · intro h0
    rw [pick_not] at *
    exact h0

theorem Hold.setTx_same {f : Ep} {x : Bool} {g : Log} {e : Ep} (h : Hold f x g e) (c : Nat) (s : TxChan) (hs : SameTx (e.tx c) s) :
    Hold f x g (e.setTx c s) :=
  h.setTx c s (fun _ _ _ _ hd _ _ _ => hd.same hs)

/-- The links of the timer queue are all that changes. -/
theorem delTimer_frame {ch ch' : TxChan} {i : Nat} (h : delTimer ch i = some ch') :
    ∃ fi la pr ne, ch' = { ch with first := fi, last := la, prev := pr, next := ne } := by
  unfold delTimer at h
  split at h
  · cases h; exact ⟨_, _, _, _, rfl⟩
  · split at h
    · split at h
      · simp only [Option.bind_some] at h
        split at h
        · cases h; exact ⟨_, _, _, _, rfl⟩
        · split at h
          · cases h; exact ⟨_, _, _, _, rfl⟩
          · cases h
      · split at h
        · simp only [Option.bind_some] at h
          split at h
          · cases h; exact ⟨_, _, _, _, rfl⟩
          · split at h
            · cases h; exact ⟨_, _, _, _, rfl⟩
            · cases h
        · cases h
    · cases h

theorem addTimer_frame {ch ch' : TxChan} {i : Nat} (h : addTimer ch i = some ch') :
    ∃ fi la pr ne, ch' = { ch with first := fi, last := la, prev := pr, next := ne } := by
  unfold addTimer at h
  split at h
  · simp only [Option.bind_some] at h
    split at h
    · cases h; exact ⟨_, _, _, _, rfl⟩
    · cases h
  · split at h
    · simp only [Option.bind_some] at h
      split at h
      · cases h; exact ⟨_, _, _, _, rfl⟩
      · cases h
    · cases h

theorem advance_congr {s s' : TxChan} (hw : s'.window = s.window) (hi : s'.inPtr = s.inPtr) (hb : s'.buf = s.buf) :
    ∀ n p, advance s n p = advance s' n p := by
  intro n
  induction n with
  | zero => intro p; rfl
  | succ n ih =>
    intro p
    unfold advance
    simp only
    rw [hw, hi, hb, ih]

/-- An acknowledgement comes for something which the other side has. -/
theorem Hold.processAck {f : Ep} {x : Bool} {g : Log} {e e' : Ep} (h : Hold f x g e) {c a : Nat} (hc : Rel c)
    (ha : Received (f.rx c) (got (!x) c g).length a) (hfresh : (given x c (logOf x g e)).length ≤ a + 15000)
    (hr : Sprt.processAck e c (a % 16384) = some e') :
    Hold f x g e' ∧ e'.rx = e.rx ∧ e'.acts = e.acts ∧ e'.ackQueue = e.ackQueue := by
  have hdir := h.dir x c hc
  rw [pick_same, pick_not, got_other] at hdir
  obtain ⟨O, hs, -⟩ := hdir.snd
  have hw := hs.w
  have hal := hdir.rcv.lt ha
  unfold Sprt.processAck at hr
  rw [if_pos (show c = 1 ∨ c = 2 from hc)] at hr
  simp only at hr
  have hdiff : ((e.tx c).queueSeq + 16384 - a % 16384) % 16384 = (given x c (logOf x g e)).length - a := by
    rw [hs.seq]; omega
  rw [hdiff] at hr
  split at hr
  · next hd =>
    have hslot : (if (e.tx c).inPtr < (given x c (logOf x g e)).length - a then
        (e.tx c).inPtr + (e.tx c).window - ((given x c (logOf x g e)).length - a)
        else (e.tx c).inPtr - ((given x c (logOf x g e)).length - a)) = a % (e.tx c).window := by
      rw [hs.inp, sub_mod hd (by omega),
        show (given x c (logOf x g e)).length - ((given x c (logOf x g e)).length - a) = a by omega]
    rw [hslot] at hr
    split at hr
    · split at hr
      · next hsome =>
        rcases hdl : delTimer { e.tx c with
            buf := upd (e.tx c).buf (a % (e.tx c).window) none, timer := upd (e.tx c).timer (a % (e.tx c).window) 0 }
            (a % (e.tx c).window) with _ | ch
        · rw [hdl] at hr; cases hr
        · rw [hdl] at hr
          obtain ⟨fi, la, pr, ne, rfl⟩ := delTimer_frame hdl
          simp only [Option.bind_some] at hr
          cases hr
          refine ⟨?_, rfl, rfl, rfl⟩
          apply h.setTx
          rintro - r L G hd' rfl rfl rfl
          refine hd'.ack ha (by omega) hsome _ ?_ ?_ ?_ ?_ ?_
          · split <;> rfl
          · split <;> rfl
          · split <;> rfl
          · split <;> rfl
          · split
            · refine advance_congr (s := _) (s' := _) ?_ ?_ ?_ _ _ <;> rfl
            · rfl
      · cases hr; exact ⟨h, rfl, rfl, rfl⟩
    · cases hr
  · cases hr; exact ⟨h, rfl, rfl, rfl⟩

theorem Hold.processAcks {f : Ep} {x : Bool} {g : Log} : ∀ l {e e' : Ep}, Hold f x g e →
    (∀ v ∈ l, Rel (v / 16384 % 4) → ∃ a, v % 16384 = a % 16384 ∧ Received (f.rx (v / 16384 % 4)) (got (!x) (v / 16384 % 4) g).length a
      ∧ (given x (v / 16384 % 4) (logOf x g e)).length ≤ a + 15000) →
    Sprt.processAcks e l = some e' → Hold f x g e' ∧ e'.rx = e.rx ∧ e'.acts = e.acts ∧ e'.ackQueue = e.ackQueue := by
  intro l
  induction l with
  | nil => intro e e' h _ hr; cases hr; exact ⟨h, rfl, rfl, rfl⟩
  | cons v l ih =>
    intro e e' h hl hr
    unfold Sprt.processAcks at hr
    rcases hp : Sprt.processAck e (v / 16384 % 4) (v % 16384) with _ | e1
    · rw [hp] at hr; cases hr
    · rw [hp] at hr
      have h1 : Hold f x g e1 ∧ e1.rx = e.rx ∧ e1.acts = e.acts ∧ e1.ackQueue = e.ackQueue := by
        by_cases hc : Rel (v / 16384 % 4)
        · obtain ⟨a, k1, k2, k3⟩ := hl v List.mem_cons_self hc
          rw [k1] at hp
          exact h.processAck hc k2 k3 hp
        · unfold Sprt.processAck at hp
          rw [if_neg (show ¬ (v / 16384 % 4 = 1 ∨ v / 16384 % 4 = 2) from hc)] at hp
          cases hp; exact ⟨h, rfl, rfl, rfl⟩
      obtain ⟨k1, k2, k3, k4⟩ := h1
      have hlog : logOf x g e1 = logOf x g e := by unfold logOf; rw [k3]
      obtain ⟨m1, m2, m3, m4⟩ := ih k1 (by intro u hu; rw [hlog]; exact hl u (List.mem_cons_of_mem _ hu)) hr
      exact ⟨m1, m2.trans k2, m3.trans k3, m4.trans k4⟩

theorem got_accepted (y x : Bool) (c d : Nat) (l : Log) (p : List Nat) : got y c (l ++ [(x, .accepted d p)]) = got y c l := by
  rw [got_append]; simp [got]

/-- A payload is taken. -/
theorem Hold.accept {f : Ep} {x : Bool} {g : Log} {e : Ep} (h : Hold f x g e) (c : Nat) (p : List Nat) (s : TxChan)
    (hs : Rel c → ∀ r L G, Dir (e.tx c) r L G → Dir s r (L ++ [p]) G) :
    Hold f x g ((e.setTx c s).emit (.accepted c p)) := by
  have hlog : logOf x g ((e.setTx c s).emit (.accepted c p)) = logOf x g e ++ [(x, .accepted c p)] := logOf_emit x g (e.setTx c s) _
  have hP : has f x g ((e.setTx c s).emit (.accepted c p)) = has f x g e :=
    has_congr rfl (fun _ _ => by rw [hlog, got_accepted])
  unfold Hold
  rw [hP]
  unfold HoldP
  rw [hlog]
  refine Inv.next h _ ?_ ?_ h.queue h.short h.base (fun _ _ _ _ h => h) ?_ ?_
  · intro y d hd
    have h0 := h.dir y d hd
    rw [got_accepted, given_append, given_singleton]
    show Dir (pick x (upd e.tx c s) f.tx y d) (pick x e.rx f.rx (!y) d) _ _
    revert y
    refine two x ?_ ?_
    · intro h0
      rw [pick_same, pick_not] at *
      by_cases hdc : d = c
      · subst hdc
        rw [upd_same, if_pos ⟨rfl, rfl⟩]
        exact hs hd _ _ _ h0
      · rw [upd_other _ _ hdc, if_neg (fun h => hdc h.2.symm), List.append_nil]; exact h0
    · intro h0
      rw [pick_not] at *
      rw [if_neg (by intro hh; cases x <;> cases hh.1), List.append_nil]
      exact h0
  · intro y d b hd hb
    rw [got_accepted] at hb
    exact h.has y d b hd hb
  · intro y d hd r hr
    simp [got] at hr
  · intro k y pkt hk hs'
    exact (no_sent (by intro _ h; cases h) hk hs').elim

theorem Hold.send {f : Ep} {x : Bool} {g : Log} {e : Ep} (h : Hold f x g e) {c seq : Nat} {p : List Nat} (hc : c ≤ 3)
    (hdata : Rel c → p ≠ [] → ∃ a, seq % 16384 = a % 16384 ∧ (given x c (logOf x g e))[a]? = some p
      ∧ (given x c (logOf x g e)).length ≤ a + 95)
    (hloose : ¬ Rel c → p ≠ [] → p ∈ given x c (logOf x g e)) : Hold f x g (buildSend e c seq p) := by
  unfold Hold
  rw [has_buildSend]
  exact HoldP.send h hc hdata hloose

theorem Hold.ackOnly {f : Ep} {x : Bool} {g : Log} {e : Ep} (h : Hold f x g e) {c seq : Nat} (hc : c ≤ 3) :
    Hold f x g (buildSend e c seq []) :=
  h.send hc (fun _ h => absurd rfl h) (fun _ h => absurd rfl h)

theorem given_accept (x : Bool) (g : Log) (e : Ep) (c : Nat) (s : TxChan) (p : List Nat) :
    given x c (logOf x g ((e.setTx c s).emit (.accepted c p))) = given x c (logOf x g e) ++ [p] := by
  rw [logOf_emit, given_append, given_singleton, if_pos ⟨rfl, rfl⟩]
  rfl

/-- A payload is given to a reliable channel. -/
theorem Hold.txReliable {f : Ep} {x : Bool} {g : Log} {e : Ep} (h : Hold f x g e) {c : Nat} (hc : Rel c) {p : List Nat} {now : Nat}
    {r : Ep × Bool} (hr : Sprt.txReliable e c p now = some r) : Hold f x g r.1 := by
  have hc3 : c ≤ 3 := by rcases hc with h | h <;> omega
  unfold Sprt.txReliable at hr
  simp only at hr
  by_cases hroom : (if (e.tx c).outPtr < (e.tx c).inPtr + 1 then (e.tx c).outPtr + (e.tx c).window - ((e.tx c).inPtr + 1)
      else (e.tx c).outPtr - ((e.tx c).inPtr + 1)) < 1
  · rw [if_pos hroom] at hr
    cases hr; exact h
  · rw [if_neg hroom] at hr
    split at hr
    · rcases hat : addTimer { e.tx c with
          buf := upd (e.tx c).buf (e.tx c).inPtr (some p), queueSeq := ((e.tx c).queueSeq + 1) % 16384
          timer := upd (e.tx c).timer (e.tx c).inPtr (now + (e.tx c).tr03Timeout)
          tries := upd (e.tx c).tries (e.tx c).inPtr (e.tx c).maxTries } (e.tx c).inPtr with _ | ch
      · rw [hat] at hr; cases hr
      · rw [hat] at hr
        obtain ⟨fi, la, pr, ne, rfl⟩ := addTimer_frame hat
        simp only [Option.bind_some] at hr
        cases hr
        refine Hold.send (h.accept c p _ ?_) hc3 ?_ (fun hn => absurd hc hn)
        · intro _ r L G hd
          exact hd.accept p (by omega) _ rfl rfl rfl rfl rfl
        · intro _ _
          have hdir := h.dir x c hc
          rw [pick_same, pick_not, got_other] at hdir
          obtain ⟨O, hs, -⟩ := hdir.snd
          rw [given_accept]
          refine ⟨(given x c (logOf x g e)).length, ?_, ?_, ?_⟩
          · rw [hs.seq]; omega
          · simp
          · simp
    · cases hr

theorem setTx_emit_comm (e : Ep) (c : Nat) (s : TxChan) (a : Act) : (e.setTx c s).emit a = (e.emit a).setTx c s := rfl

theorem self_setTx (e : Ep) (c : Nat) : e.setTx c (e.tx c) = e := by
  unfold Ep.setTx
  have : upd e.tx c (e.tx c) = e.tx := by
    funext j; unfold upd; split
    · next h => rw [h]
    · rfl
  rw [this]

/-- `sprt_tx` keeps the invariant. -/
theorem Hold.tx {f : Ep} {x : Bool} {g : Log} {e : Ep} (h : Hold f x g e) {c : Nat} {p : List Nat} {now : Nat}
    {r : Ep × Bool} (hr : Sprt.tx e c p now = some r) : Hold f x g r.1 := by
  unfold Sprt.tx at hr
  split at hr
  · cases hr; exact h
  · next hc3 =>
    split at hr
    · cases hr; exact h
    · split at hr
      · next hc => exact h.txReliable hc hr
      · next hc =>
        have hacc : Hold f x g (e.emit (.accepted c p)) := by
          have := h.accept c p (e.tx c) (fun hn => absurd hn hc)
          rw [self_setTx] at this; exact this
        have hin : p ∈ given x c (logOf x g (e.emit (.accepted c p))) := by
          rw [logOf_emit, given_append, given_singleton, if_pos ⟨rfl, rfl⟩]; simp
        split at hr
        · cases hr
          exact hacc.send (by omega) (fun hn => absurd hn hc) (fun _ _ => hin)
        · cases hr
          refine Hold.setTx (hacc.send (by omega) (fun hn => absurd hn hc) (fun _ _ => hin)) c _ (fun hn => absurd hn hc)

/-- The payload of a slot is sent with its own sequence number. -/
theorem Snd.slotSeq {s : TxChan} {L : List (List Nat)} {O : Nat} (h : Snd s L O) {i : Nat} {p : List Nat} (hp : s.buf i = some p) :
    ∃ a, Sprt.slotSeq s i % 16384 = a % 16384 ∧ L[a]? = some p ∧ L.length ≤ a + 95 := by
  obtain ⟨a, h1, h2, h3⟩ := h.free i p hp
  have hw := h.w
  have hroom := h.room
  have hm := Nat.mod_lt L.length (show 0 < s.window by omega)
  refine ⟨a, ?_, h.slot a h1 h2 p (by rw [h3]; exact hp), by omega⟩
  have hi := sub_mod (q := L.length) (d := L.length - a) (w := s.window) (by omega) (by omega)
  rw [show L.length - (L.length - a) = a by omega, h3] at hi
  have hd : (if s.inPtr < i then s.inPtr + s.window - i else s.inPtr - i) = L.length - a := by
    rw [h.inp]
    split at hi <;> split <;> omega
  unfold Sprt.slotSeq
  simp only
  rw [hd, h.seq]
  omega

theorem Hold.requeue {f : Ep} {x : Bool} {g : Log} {e e' : Ep} (h : Hold f x g e) {c i : Nat} (hr : Sprt.requeue e c i = some e') :
    Hold f x g e' := by
  unfold Sprt.requeue at hr
  rcases hd : delTimer (e.tx c) i with _ | ch
  · rw [hd] at hr; cases hr
  · rw [hd] at hr
    obtain ⟨fi, la, pr, ne, rfl⟩ := delTimer_frame hd
    simp only [Option.bind_some] at hr
    split at hr
    · cases hr
      refine Hold.status ?_ 1
      exact h.setTx_same c _ ⟨rfl, rfl, rfl, rfl, rfl⟩
    · rcases ha : addTimer { e.tx c with
          first := fi, last := la, prev := pr, next := ne
          tries := upd (e.tx c).tries i (((e.tx c).tries i + 255) % 256)
          timer := upd (e.tx c).timer i ((e.tx c).timer i + (e.tx c).tr03Timeout) } i with _ | ch2
      · rw [ha] at hr; cases hr
      · rw [ha] at hr
        obtain ⟨fi2, la2, pr2, ne2, rfl⟩ := addTimer_frame ha
        cases hr
        exact h.setTx_same c _ ⟨rfl, rfl, rfl, rfl, rfl⟩

/-- What is not acknowledged is sent again. -/
theorem Hold.retransmit {f : Ep} {x : Bool} {g : Log} {c now : Nat} (hc : Rel c) : ∀ n {e : Ep} {b : Bool} {r : Ep × Bool},
    Hold f x g e → Sprt.retransmit c now n e b = some r → Hold f x g r.1 := by
  have hc3 : c ≤ 3 := by rcases hc with h | h <;> omega
  intro n
  induction n with
  | zero => intro e b r _ h; cases h
  | succ n ih =>
    intro e b r h hr
    unfold Sprt.retransmit at hr
    simp only at hr
    split at hr
    · cases hr; exact h
    · split at hr
      · split at hr
        · split at hr
          · next p hp =>
            rcases hq : Sprt.requeue (buildSend e c (slotSeq (e.tx c) (e.tx c).first) p) c (e.tx c).first with _ | e1
            · rw [hq] at hr; cases hr
            · rw [hq] at hr
              refine ih (Hold.requeue (h.send hc3 (fun _ _ => ?_) (fun hn => absurd hc hn)) hq) hr
              have hdir := h.dir x c hc
              rw [pick_same, pick_not, got_other] at hdir
              obtain ⟨O, hs, -⟩ := hdir.snd
              exact hs.slotSeq hp
          · rcases hq : Sprt.requeue e c (e.tx c).first with _ | e1
            · rw [hq] at hr; cases hr
            · rw [hq] at hr
              exact ih (h.requeue hq) hr
        · cases hr; exact h
      · cases hr

theorem Hold.timerChan {f : Ep} {x : Bool} {g : Log} {e : Ep} {c now : Nat} (hc : Rel c) {r : Ep × Bool} (h : Hold f x g e)
    (hr : Sprt.timerChan e c now = some r) : Hold f x g r.1 := by
  have hc3 : c ≤ 3 := by rcases hc with h | h <;> omega
  unfold Sprt.timerChan at hr
  rcases hq : Sprt.retransmit c now 30000 e false with _ | ⟨e1, b⟩
  · rw [hq] at hr; cases hr
  · rw [hq] at hr
    have h1 := h.retransmit hc _ hq
    simp only [Option.bind_some] at hr
    split at hr
    · have h2 : ∀ q : Bool, Hold f x g (if q = true then buildSend e1 c 0 [] else e1) := by
        intro q
        split
        · exact h1.ackOnly hc3
        · exact h1
      split at hr
      · cases hr
        exact (h2 _).setTx_same c _ ⟨rfl, rfl, rfl, rfl, rfl⟩
      · cases hr
        exact h2 _
    · cases hr; exact h1

/-- `sprt_timer_expired` keeps the invariant. -/
theorem Hold.timerExpired {f : Ep} {x : Bool} {g : Log} {e e' : Ep} {now : Nat} {app : List Bool} (h : Hold f x g e)
    (hr : Sprt.timerExpired e now app = some e') : Hold f x g e' := by
  unfold Sprt.timerExpired at hr
  split at hr
  · cases hr; exact h
  · unfold Sprt.timerDue at hr
    rcases hd : (if e.immediate then (Sprt.deliver { e with immediate := false } app).bind fun r => some r.1 else some e) with _ | e1
    · rw [hd] at hr; cases hr
    · rw [hd] at hr
      simp only [Option.bind_some] at hr
      have h1 : Hold f x g e1 := by
        split at hd
        · rcases hq : Sprt.deliver { e with immediate := false } app with _ | r
          · rw [hq] at hd; cases hd
          · rw [hq] at hd
            cases hd
            have h0 : Hold f x g { e with immediate := false } := h.congr rfl rfl rfl rfl
            exact h0.deliver hq
        · cases hd; exact h
      rcases hq1 : Sprt.timerChan e1 1 now with _ | r1
      · rw [hq1] at hr; cases hr
      · rw [hq1] at hr
        simp only [Option.bind_some] at hr
        have h2 := h1.timerChan (Or.inl rfl) hq1
        rcases hq2 : Sprt.timerChan r1.1 2 now with _ | r2
        · rw [hq2] at hr; cases hr
        · rw [hq2] at hr
          simp only [Option.bind_some] at hr
          have h3 := h2.timerChan (Or.inr rfl) hq2
          cases hr
          refine Hold.congr ?_ (updateTimer_tx _) (updateTimer_rx _) (updateTimer_q _) (updateTimer_acts _)
          split
          · exact h3.ackOnly (by omega)
          · exact h3

/-- A payload comes. -/
theorem Hold.rxPayload {f : Ep} {x : Bool} {g : Log} {e e' : Ep} {c : Nat} {p : List Nat} {seq now : Nat} {app : List Bool}
    (h : Hold f x g e)
    (hdata : Rel c → p ≠ [] → ∃ a, seq = a % 16384 ∧ (given (!x) c g)[a]? = some p ∧ (given (!x) c g).length ≤ a + 7095)
    (hloose : ¬ Rel c → p ≠ [] → p ∈ given (!x) c g)
    (hr : Sprt.rxPayload e c seq p now app = some e') : Hold f x g e' := by
  unfold Sprt.rxPayload at hr
  split at hr
  · cases hr; exact h
  · next hlen =>
    have hne : p ≠ [] := by intro h0; rw [h0] at hlen; simp at hlen
    split at hr
    · next hc =>
      obtain ⟨a, rfl, k2, k3⟩ := hdata hc hne
      have hdir := h.dir (!x) c hc
      rw [Bool.not_not, pick_same, pick_not, given_other] at hdir
      have hah := hdir.ahead
      have hal : a < (given (!x) c g).length := (List.getElem?_eq_some_iff.mp k2).1
      have hle := hdir.rcv.le
      split at hr
      · next hs =>
        have : a = (got x c (logOf x g e)).length := by
          rw [hdir.rcv.seq] at hs
          omega
        rw [hs] at hr
        rw [this] at k2
        exact h.rxNext hc k2 hr
      · exact h.rxOther hc k2 k3 hr
    · next hc =>
      cases hr
      have hlog : logOf x g (e.emit (.delivered c seq p)) = logOf x g e ++ [(x, .delivered c seq p)] := logOf_emit x g e _
      have hgot : ∀ y d, Rel d → got y d (logOf x g e ++ [(x, .delivered c seq p)]) = got y d (logOf x g e) := by
        intro y d hd
        rw [got_append, got_singleton, if_neg (by rintro ⟨-, rfl⟩; exact hc hd), List.append_nil]
      have hP : ∀ y d b, Rel d → (has f x g (e.emit (.delivered c seq p)) y d b ↔ has f x g e y d b) := by
        intro y d b hd
        unfold has
        rw [hlog, hgot y d hd]; exact Iff.rfl
      unfold Hold HoldP
      rw [hlog]
      refine Inv.next h _ ?_ ?_ ?_ h.short h.base (fun y d b hd hb => (hP y d b hd).mpr hb) ?_ ?_
      · intro y d hd
        rw [given_delivered, hgot _ _ hd]; exact h.dir y d hd
      · intro y d b hd hb
        rw [hgot _ _ hd] at hb
        exact (hP y d b hd).mpr (h.has y d b hd hb)
      · intro y j v hv
        obtain ⟨k1, b, k2, k3, k4⟩ := h.queue y j v hv
        exact ⟨k1, b, k2, (hP _ _ _ k1).mpr k3, fun b' hb' => k4 b' ((hP _ _ _ k1).mp hb')⟩
      · intro y d hd r hr
        rw [got_singleton] at hr
        split at hr
        · next hh =>
          obtain ⟨rfl, rfl⟩ := hh
          simp at hr
          rw [hr, given_delivered, given_other]
          exact hloose hc hne
        · simp at hr
      · intro k y pkt hk hs'
        exact (no_sent (by intro _ h; cases h) hk hs').elim

/-- A datagram comes which the other side sent and which is not too old. -/
theorem Hold.rxBody {f : Ep} {x : Bool} {g : Log} {e : Ep} {pkt : List Nat} {now : Nat} {app : List Bool} {r : Ep × Bool}
    (h : Hold f x g e)
    (hdata : Rel (pktChan pkt) → pktPay pkt ≠ [] → ∃ a, pktSeq pkt = a % 16384 ∧ (given (!x) (pktChan pkt) g)[a]? = some (pktPay pkt)
      ∧ (given (!x) (pktChan pkt) g).length ≤ a + 7095)
    (hloose : ¬ Rel (pktChan pkt) → pktPay pkt ≠ [] → pktPay pkt ∈ given (!x) (pktChan pkt) g)
    (hacks : ∀ v ∈ pktAcks pkt, Rel (v / 16384 % 4) → ∃ a, v % 16384 = a % 16384
      ∧ Received (f.rx (v / 16384 % 4)) (got (!x) (v / 16384 % 4) g).length a
      ∧ (given x (v / 16384 % 4) (logOf x g e)).length ≤ a + 15000)
    (hr : Sprt.rxBody e pkt now app = some r) : Hold f x g r.1 := by
  unfold Sprt.rxBody at hr
  simp only at hr
  have h1 : Hold f x g (e.setTx (get16 pkt 2 / 16384 % 4) { e.tx (get16 pkt 2 / 16384 % 4) with baseSeq := get16 pkt 4 % 16384 }) :=
    h.setTx_same _ _ ⟨rfl, rfl, rfl, rfl, rfl⟩
  split at hr
  · cases hr; exact h1
  · rcases hq : Sprt.processAcks
        (e.setTx (get16 pkt 2 / 16384 % 4) { e.tx (get16 pkt 2 / 16384 % 4) with baseSeq := get16 pkt 4 % 16384 })
        ((List.range (get16 pkt 4 / 16384 % 4)).map fun i => get16 pkt (6 + 2 * i)) with _ | e2
    · rw [hq] at hr; cases hr
    · rw [hq] at hr
      simp only [Option.bind_some] at hr
      obtain ⟨h2, -, -, -⟩ := Hold.processAcks _ h1 hacks hq
      rcases hp : Sprt.rxPayload e2 (get16 pkt 2 / 16384 % 4) (get16 pkt 2 % 16384) (pkt.drop (6 + 2 * (get16 pkt 4 / 16384 % 4))) now app
        with _ | e3
      · rw [hp] at hr; cases hr
      · rw [hp] at hr
        cases hr
        exact h2.rxPayload hdata hloose hp

end Sprt
