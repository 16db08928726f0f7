import Verif.Sprt.Local

/-!
# Histories keep the invariant
-/

namespace Sprt

set_option linter.unusedSimpArgs false
set_option linter.unusedVariables false

/-- An endpoint which has not been used yet. -/
structure New (e : Ep) : Prop where
  acts : e.acts = []
  queue : e.ackQueue = []
  imm : e.immediate = false
  ta01 : e.ta01Timer = 0
  tw : ∀ c, Rel c → 8 ≤ (e.tx c).window ∧ (e.tx c).window < cap c
  rw : ∀ c, Rel c → 8 ≤ (e.rx c).window ∧ (e.rx c).window < cap c
  seq : ∀ c, (e.tx c).queueSeq = 0
  tinp : ∀ c, (e.tx c).inPtr = 0
  outp : ∀ c, (e.tx c).outPtr = 0
  tbuf : ∀ c i, (e.tx c).buf i = none
  first : ∀ c, (e.tx c).first = 255
  last : ∀ c, (e.tx c).last = 255
  tries : ∀ c, 1 ≤ (e.tx c).maxTries ∧ (e.tx c).maxTries ≤ 20
  base : ∀ c, (e.rx c).baseSeq = 0
  rinp : ∀ c, (e.rx c).inPtr = 0
  rbuf : ∀ c i, (e.rx c).buf i = none
  busy : ∀ c, (e.rx c).busy = false
  tp : ∀ c, (e.tx c).maxPayload ≤ 256
  rp : ∀ c, (e.rx c).maxPayload ≤ 256
  prev : ∀ c i, (e.tx c).prev i = 255

theorem New.setTx {e : Ep} (h : New e) (c : Nat) {s : TxChan} (hw : Rel c → 8 ≤ s.window ∧ s.window < cap c) (h1 : s.queueSeq = 0)
    (h2 : s.inPtr = 0) (h3 : s.outPtr = 0) (h4 : ∀ i, s.buf i = none) (h5 : s.first = 255) (h6 : s.last = 255)
    (h7 : 1 ≤ s.maxTries ∧ s.maxTries ≤ 20) (h8 : s.maxPayload ≤ 256) (h9 : ∀ i, s.prev i = 255) : New (e.setTx c s) := by
  constructor
  case tw => intro d hd; by_cases hdc : d = c
             · subst hdc; simpa [Ep.setTx, upd] using hw hd
             · simpa [Ep.setTx, upd, hdc] using h.tw d hd
  case rw => exact h.rw
  case acts => exact h.acts
  case queue => exact h.queue
  case imm => exact h.imm
  case ta01 => exact h.ta01
  case base => exact h.base
  case rinp => exact h.rinp
  case rbuf => exact h.rbuf
  case busy => exact h.busy
  case seq => intro d; by_cases hdc : d = c <;> simp [Ep.setTx, upd, hdc, h1, h.seq]
  case tinp => intro d; by_cases hdc : d = c <;> simp [Ep.setTx, upd, hdc, h2, h.tinp]
  case outp => intro d; by_cases hdc : d = c <;> simp [Ep.setTx, upd, hdc, h3, h.outp]
  case tbuf => intro d i; by_cases hdc : d = c <;> simp [Ep.setTx, upd, hdc, h4, h.tbuf]
  case first => intro d; by_cases hdc : d = c <;> simp [Ep.setTx, upd, hdc, h5, h.first]
  case last => intro d; by_cases hdc : d = c <;> simp [Ep.setTx, upd, hdc, h6, h.last]
  case rp => exact h.rp
  case tp => intro d; by_cases hdc : d = c <;> simp [Ep.setTx, upd, hdc, h8, h.tp]
  case prev => intro d i; by_cases hdc : d = c <;> simp [Ep.setTx, upd, hdc, h9, h.prev]
  case tries => intro d; by_cases hdc : d = c <;> simp [Ep.setTx, upd, hdc, h7, h.tries]

theorem New.setRx {e : Ep} (h : New e) (c : Nat) {r : RxChan} (hw : Rel c → 8 ≤ r.window ∧ r.window < cap c) (h1 : r.baseSeq = 0)
    (h2 : r.inPtr = 0) (h4 : ∀ i, r.buf i = none) (h5 : r.busy = false) (h6 : r.maxPayload ≤ 256) : New (e.setRx c r) := by
  constructor
  case rw => intro d hd; by_cases hdc : d = c
             · subst hdc; simpa [Ep.setRx, upd] using hw hd
             · simpa [Ep.setRx, upd, hdc] using h.rw d hd
  case tw => exact h.tw
  case acts => exact h.acts
  case queue => exact h.queue
  case imm => exact h.imm
  case ta01 => exact h.ta01
  case seq => exact h.seq
  case tinp => exact h.tinp
  case outp => exact h.outp
  case tbuf => exact h.tbuf
  case first => exact h.first
  case last => exact h.last
  case tries => exact h.tries
  case tp => exact h.tp
  case prev => exact h.prev
  case rp => intro d; by_cases hdc : d = c <;> simp [Ep.setRx, upd, hdc, h6, h.rp]
  case base => intro d; by_cases hdc : d = c <;> simp [Ep.setRx, upd, hdc, h1, h.base]
  case rinp => intro d; by_cases hdc : d = c <;> simp [Ep.setRx, upd, hdc, h2, h.rinp]
  case rbuf => intro d i; by_cases hdc : d = c <;> simp [Ep.setRx, upd, hdc, h4, h.rbuf]
  case busy => intro d; by_cases hdc : d = c <;> simp [Ep.setRx, upd, hdc, h5, h.busy]

theorem limits_window {c n : Nat} (h : (c = 1 ∨ c = 2) ∧ (limits c).2.1 ≤ n ∧ n ≤ (limits c).2.2) : 8 ≤ n ∧ n < cap c := by
  obtain ⟨rfl | rfl, h1, h2⟩ := h
  · simp [limits, cap] at *; omega
  · simp [limits, cap] at *; omega

theorem limits_payload {c n : Nat} (h : n ≤ (limits c).1.2) : n ≤ 256 := by
  unfold limits at h
  split at h
  · exact h
  · split at h <;> exact h

theorem New.set {e : Ep} (h : New e) (s : Set) : New (e.set s) := by
  cases s with
  | localWindow c n =>
    show New ((setLocalWindow e c n).getD e)
    unfold setLocalWindow
    split
    · next hc => exact h.setRx c (fun _ => limits_window hc) (h.base c) (h.rinp c) (h.rbuf c) (h.busy c) (h.rp c)
    · exact h
  | farWindow c n =>
    show New ((setFarWindow e c n).getD e)
    unfold setFarWindow
    split
    · next hc => exact h.setTx c (fun _ => limits_window hc) (h.seq c) (h.tinp c) (h.outp c) (h.tbuf c) (h.first c) (h.last c) (h.tries c) (h.tp c) (h.prev c)
    · exact h
  | localPayload c n =>
    show New ((setLocalPayload e c n).getD e)
    unfold setLocalPayload
    split
    · next hc => exact h.setRx c (h.rw c) (h.base c) (h.rinp c) (h.rbuf c) (h.busy c) (limits_payload hc.2.2)
    · exact h
  | farPayload c n =>
    show New ((setFarPayload e c n).getD e)
    unfold setFarPayload
    split
    · next hc => exact h.setTx c (h.tw c) (h.seq c) (h.tinp c) (h.outp c) (h.tbuf c) (h.first c) (h.last c) (h.tries c) (limits_payload hc.2.2) (h.prev c)
    · next hc => exact h
  | maxTries c n =>
    show New ((setMaxTries e c n).getD e)
    unfold setMaxTries
    split
    · next hc => exact h.setTx c (h.tw c) (h.seq c) (h.tinp c) (h.outp c) (h.tbuf c) (h.first c) (h.last c) hc.2 (h.tp c) (h.prev c)
    · exact h
  | ta01 n => exact ⟨h.acts, h.queue, h.imm, h.ta01, h.tw, h.rw, h.seq, h.tinp, h.outp, h.tbuf, h.first, h.last, h.tries, h.base, h.rinp, h.rbuf, h.busy, h.tp, h.rp, h.prev⟩
  | ta02 c n =>
    show New (if c = 1 ∨ c = 2 then _ else e)
    split
    · exact h.setTx c (h.tw c) (h.seq c) (h.tinp c) (h.outp c) (h.tbuf c) (h.first c) (h.last c) (h.tries c) (h.tp c) (h.prev c)
    · exact h
  | tr03 c n =>
    show New (if c = 1 ∨ c = 2 then _ else e)
    split
    · exact h.setTx c (h.tw c) (h.seq c) (h.tinp c) (h.outp c) (h.tbuf c) (h.first c) (h.last c) (h.tries c) (h.tp c) (h.prev c)
    · exact h

theorem Opened.new {e : Ep} (h : Opened e) : New e := by
  obtain ⟨sub, rt, tt, parms, e0, sets, h0, rfl⟩ := h
  have hn : New e0 := by
    have hw : ∀ c, Rel c → 8 ≤ (defaultParms c).window ∧ (defaultParms c).window < cap c := by
      rintro c (rfl | rfl) <;> simp [defaultParms, cap]
    have he : e0 = { rxSub := 255, rxType := rt, txSub := sub, txType := tt, tx := fun c => txInit (defaultParms c), rx := fun c => rxInit (defaultParms c), ackQueue := [], ta01Timeout := (defaultParms 1).ta01, ta01Timer := 0, immediate := false, latest := 0, acts := [] } := by
      unfold init at h0
      cases parms with
      | none => exact (Option.some.inj h0).symm
      | some p =>
        simp only at h0
        split at h0
        · exact (Option.some.inj h0).symm
        · cases h0
    subst he
    have hp : ∀ c, (defaultParms c).payload ≤ 256 := by
      intro c
      unfold defaultParms
      split
      · decide
      · split <;> decide
    constructor <;> first | rfl | exact hw | exact hp | (intros; simp [txInit, rxInit])
  clear h0
  induction sets generalizing e0 with
  | nil => exact hn
  | cons s l ih => exact ih _ (hn.set s)

/-! ## The invariant of two endpoints -/

/-- What an endpoint has. -/
def Sys.has (s : Sys) : Has := fun y c a => Received ((s.ep y).rx c) (got y c s.log).length a

/-- The invariant of two endpoints, between events. -/
structure SInv (s : Sys) : Prop where
  inv : Inv (fun y => (s.ep y).tx) (fun y => (s.ep y).rx) (fun y => (s.ep y).ackQueue) s.log s.has
  acts : ∀ y, (s.ep y).acts = []

theorem logOf_nil {x : Bool} {g : Log} {e : Ep} (h : e.acts = []) : logOf x g e = g := by
  unfold logOf
  rw [h]
  simp

theorem pick_ep {α : Type} (s : Sys) (x : Bool) (F : Ep → α) : pick x (F (s.ep x)) (F (s.ep !x)) = fun y => F (s.ep y) := by
  funext y
  cases x <;> cases y <;> rfl

theorem SInv.hold {s : Sys} (h : SInv s) (x : Bool) : Hold (s.ep !x) x s.log (s.ep x) := by
  unfold Hold HoldP
  have hh : Sprt.has (s.ep !x) x s.log (s.ep x) = s.has := by
    funext y c a
    unfold Sprt.has Sys.has
    rw [logOf_nil (h.acts x), pick_ep s x (fun e => e.rx)]
  rw [hh, logOf_nil (h.acts x), pick_ep s x (fun e => e.rx), pick_ep s x (fun e => e.tx), pick_ep s x (fun e => e.ackQueue)]
  exact h.inv

theorem put_ep_same (s : Sys) (x : Bool) (e : Ep) : (s.put x e).ep x = { e with acts := [] } := by cases x <;> rfl
theorem put_ep_other (s : Sys) (x : Bool) (e : Ep) : (s.put x e).ep (!x) = s.ep (!x) := by cases x <;> rfl
theorem put_log (s : Sys) (x : Bool) (e : Ep) : (s.put x e).log = logOf x s.log e := rfl

theorem pick_put {α : Type} (s : Sys) (x : Bool) (e : Ep) (F : Ep → α) (hF : ∀ e : Ep, F { e with acts := [] } = F e) :
    pick x (F e) (F (s.ep !x)) = fun y => F ((s.put x e).ep y) := by
  funext y
  revert y
  refine two x ?_ ?_
  · rw [pick_same, put_ep_same, hF]
  · rw [pick_not, put_ep_other]

theorem Hold.put {s : Sys} {x : Bool} {e : Ep} (h : SInv s) (hh : Hold (s.ep !x) x s.log e) : SInv (s.put x e) := by
  constructor
  · have hhas : Sprt.has (s.ep !x) x s.log e = (s.put x e).has := by
      funext y c a
      unfold Sprt.has Sys.has
      rw [put_log, pick_put s x e (fun e => e.rx) (fun _ => rfl)]
    unfold Hold HoldP at hh
    rw [hhas, pick_put s x e (fun e => e.rx) (fun _ => rfl), pick_put s x e (fun e => e.tx) (fun _ => rfl),
      pick_put s x e (fun e => e.ackQueue) (fun _ => rfl)] at hh
    exact hh
  · refine two x ?_ ?_
    · rw [put_ep_same]
    · rw [put_ep_other]; exact h.acts _

theorem SInv.start {a b : Ep} (ha : New a) (hb : New b) : SInv (Sys.start a b) := by
  have hn : ∀ y, New ((Sys.start a b).ep y) := by intro y; cases y <;> assumption
  refine ⟨?_, fun y => (hn y).acts⟩
  constructor
  · intro x c hc
    have hcap : cap c ≤ 97 := by rcases hc with rfl | rfl <;> simp [cap]
    refine ⟨rfl, ⟨⟨?_, ?_⟩, ?_, ?_, ?_, ?_⟩, 0, ⟨⟨?_, ?_⟩, ?_, ?_, ?_, ?_, ?_, ?_, ?_, ?_⟩, ?_⟩
    · have := ((hn (!x)).rw c hc).1; omega
    · have := ((hn (!x)).rw c hc).2; omega
    · exact Nat.zero_le _
    · simpa [Sys.start, got] using (hn (!x)).base c
    · simpa [Sys.start, got] using (hn (!x)).rinp c
    · intro d _ p hp
      simp only [(hn (!x)).rbuf] at hp
      cases hp
    · have := ((hn x).tw c hc).1; omega
    · have := ((hn x).tw c hc).2; omega
    · simpa [Sys.start, given] using (hn x).seq c
    · simpa [Sys.start, given] using (hn x).tinp c
    · simpa [Sys.start, given] using (hn x).outp c
    · exact Nat.zero_le _
    · have := ((hn x).tw c hc).1; show 0 + 1 ≤ 0 + _; omega
    · intro a _ h; simp [Sys.start, given] at h
    · intro i p hp
      simp only [(hn x).tbuf] at hp
      cases hp
    · intro h; simp [Sys.start, given] at h
    · intro a h; simp [Sys.start, given] at h
  · intro x c a _ h; exact h
  · intro x j v hv
    simp only [(hn x).queue] at hv
    cases hv
  · intro x; simp only [(hn x).queue]; decide
  · intro x c; simp only [(hn x).base]; decide
  · intro k y pkt hk; cases hk
  · intro x c _ g hg; cases hg

/-- What the receiver is told of its application being busy does not matter. -/
theorem Hold.rxCongr {f : Ep} {x : Bool} {g : Log} {e e' : Ep} (h : Hold f x g e) (ht : e'.tx = e.tx) (hq : e'.ackQueue = e.ackQueue)
    (ha : e'.acts = e.acts)
    (hr : ∀ c, (e'.rx c).window = (e.rx c).window ∧ (e'.rx c).baseSeq = (e.rx c).baseSeq ∧ (e'.rx c).inPtr = (e.rx c).inPtr ∧ (e'.rx c).buf = (e.rx c).buf) :
    Hold f x g e' := by
  have hl : logOf x g e' = logOf x g e := by unfold logOf; rw [ha]
  have hp : ∀ y c, (pick x e'.rx f.rx y c).window = (pick x e.rx f.rx y c).window ∧ (pick x e'.rx f.rx y c).baseSeq = (pick x e.rx f.rx y c).baseSeq ∧ (pick x e'.rx f.rx y c).inPtr = (pick x e.rx f.rx y c).inPtr ∧ (pick x e'.rx f.rx y c).buf = (pick x e.rx f.rx y c).buf := by
    intro y c
    revert y
    refine two x ?_ ?_
    · rw [pick_same, pick_same]; exact hr c
    · rw [pick_not, pick_not]; exact ⟨rfl, rfl, rfl, rfl⟩
  have hrec : ∀ y c R a, Received (pick x e'.rx f.rx y c) R a ↔ Received (pick x e.rx f.rx y c) R a := by
    intro y c R a
    unfold Received
    rw [(hp y c).1, (hp y c).2.2.2]
  have hhas : Sprt.has f x g e' = Sprt.has f x g e := by
    funext y c a
    unfold Sprt.has
    rw [hl]
    exact propext (hrec y c _ a)
  unfold Hold HoldP at *
  rw [hhas, hl, ht, hq]
  refine Inv.change h ?_ ?_ h.queue h.short ?_ (fun _ _ _ _ h => h)
  · intro y c hc
    have hd := h.dir y c hc
    obtain ⟨h1, h2, h3, h4⟩ := hp (!y) c
    obtain ⟨O, k, kr⟩ := hd.snd
    refine ⟨hd.got, ⟨by rw [h1]; exact hd.rcv.w, hd.rcv.le, by rw [h2]; exact hd.rcv.seq, by rw [h3, h1]; exact hd.rcv.inp, by rw [h1, h4]; exact hd.rcv.slot⟩, O, k, ?_⟩
    intro a ha hb
    exact (hrec _ _ _ _).mpr (kr a ha hb)
  · intro y c a hc ha
    exact h.has y c a hc ((hrec _ _ _ _).mp ha)
  · intro y c
    rw [(hp y c).2.1]
    exact h.base y c

theorem Hold.setBusy {f : Ep} {x : Bool} {g : Log} {e : Ep} (h : Hold f x g e) (c : Nat) (b : Bool) : Hold f x g (setBusy e c b) := by
  unfold Sprt.setBusy
  split
  · simp only
    have h1 : Hold f x g (e.setRx c { e.rx c with busy := b }) := by
      refine h.rxCongr rfl rfl rfl ?_
      intro d
      by_cases hd : d = c
      · subst hd; simp [Ep.setRx, upd]
      · simp [Ep.setRx, upd, hd]
    split
    · exact h1.congr (updateTimer_tx _) (updateTimer_rx _) (updateTimer_q _) (updateTimer_acts _)
    · exact h1
  · exact h

theorem Hold.rxPacket {f : Ep} {x : Bool} {g : Log} {e : Ep} {pkt : List Nat} {now : Nat} {app : List Bool} {r : Ep × Bool}
    (h : Hold f x g e)
    (hdata : Rel (pktChan pkt) → pktPay pkt ≠ [] → ∃ a, pktSeq pkt = a % 16384 ∧ (given (!x) (pktChan pkt) g)[a]? = some (pktPay pkt)
      ∧ (given (!x) (pktChan pkt) g).length ≤ a + 7095)
    (hloose : ¬ Rel (pktChan pkt) → pktPay pkt ≠ [] → pktPay pkt ∈ given (!x) (pktChan pkt) g)
    (hacks : ∀ v ∈ pktAcks pkt, Rel (v / 16384 % 4) → ∃ a, v % 16384 = a % 16384
      ∧ Received (f.rx (v / 16384 % 4)) (got (!x) (v / 16384 % 4) g).length a
      ∧ (given x (v / 16384 % 4) (logOf x g e)).length ≤ a + 15000)
    (hr : Sprt.rxPacket e pkt now app = some r) : Hold f x g r.1 := by
  rw [rxPacket_eq] at hr; unfold rxPlain at hr
  simp only at hr
  split at hr
  · cases hr; exact h
  · split at hr
    · cases hr; exact h
    · split at hr
      · cases hr; exact h
      · split at hr
        · have h1 : Hold f x g { e with rxSub := pkt[0]?.getD 0 % 128 } := h.congr rfl rfl rfl rfl
          exact h1.rxBody hdata hloose hacks hr
        · split at hr
          · cases hr; exact h.status 2
          · exact h.rxBody hdata hloose hacks hr

theorem fresh_le {log : Log} {k : Nat} (h : fresh log k = true) (x : Bool) {c : Nat} (hc : Rel c) : accepts x c (log.drop k) ≤ 7000 := by
  unfold fresh at h
  simp only [List.all_cons, List.all_nil, Bool.and_true, Bool.and_eq_true, decide_eq_true_eq] at h
  rcases hc with rfl | rfl <;> cases x <;> omega

theorem SInv.step {s s' : Sys} (h : SInv s) {ev : Ev} (hs : s.step ev = some s') : SInv s' := by
  cases ev with
  | tx x c p now =>
    rcases hq : Sprt.tx (s.ep x) c p now with _ | r
    · simp [Sys.step, hq] at hs
    · simp [Sys.step, hq] at hs
      subst hs
      exact Hold.put h ((h.hold x).tx hq)
  | timer x now app =>
    rcases hq : Sprt.timerExpired (s.ep x) now app with _ | r
    · simp [Sys.step, hq] at hs
    · simp [Sys.step, hq] at hs
      subst hs
      exact Hold.put h ((h.hold x).timerExpired hq)
  | busy x c b =>
    cases hs
    exact Hold.put h ((h.hold x).setBusy c b)
  | arrive k now app =>
    unfold Sys.step at hs
    simp only at hs
    split at hs
    · next x pkt hk =>
      split at hs
      · next hf =>
        have hg := h.inv.log k x pkt hk
        rcases hq : Sprt.rxPacket (s.ep !x) pkt now app with _ | r
        · rw [hq] at hs; cases hs
        · rw [hq] at hs
          cases hs
          refine Hold.put h ((h.hold (!x)).rxPacket ?_ ?_ ?_ hq)
          · intro hc hp
            obtain ⟨a, h1, h2, h3⟩ := hg.data hc hp
            refine ⟨a, h1, by rw [Bool.not_not]; exact h2, ?_⟩
            have := fresh_le hf x hc
            have h4 := accepts_split x (pktChan pkt) s.log k
            rw [accepts_eq x _ s.log] at h4
            rw [Bool.not_not]; omega
          · intro hc hp
            rw [Bool.not_not]
            exact hg.loose hc hp
          · intro v hv hc
            obtain ⟨a, h1, h2, h3⟩ := hg.acks v hv hc
            rw [Bool.not_not]
            refine ⟨a, h1, h2, ?_⟩
            have := fresh_le hf (!x) hc
            have h4 := accepts_split (!x) (v / 16384 % 4) s.log k
            rw [accepts_eq (!x) _ s.log] at h4
            rw [logOf_nil (h.acts _)]; omega
      · cases hs; exact h
    · cases hs; exact h

theorem SInv.run {s s' : Sys} (h : SInv s) {evs : List Ev} (hs : s.run evs = some s') : SInv s' := by
  induction evs generalizing s with
  | nil => cases hs; exact h
  | cons ev l ih =>
    unfold Sys.run at hs
    rcases hq : s.step ev with _ | s1
    · rw [hq] at hs; cases hs
    · rw [hq] at hs
      exact ih (h.step hq) hs

/-! ## An endpoint goes well until it gives something up -/

theorem New.linv {e : Ep} (h : New e) : LInv False e := by
  constructor
  · intro c hc
    have hw := h.tw c hc
    have := hc.cap
    refine ⟨hw, ⟨[], 0, ⟨by omega, h.seq c, by rw [h.tinp]; simp, by rw [h.outp]; simp, by decide, by simp; omega, ?_, ?_, ?_⟩⟩, h.tries c, ?_⟩
    · intro a _ ha; simp at ha
    · intro i p hp; rw [h.tbuf] at hp; cases hp
    · intro ha; simp at ha
    · intro i p hp; rw [h.tbuf] at hp; cases hp
  · intro c hc
    refine ⟨[], ⟨h.first c, h.last c, trivial, fun i _ => h.prev c i⟩, List.nodup_nil, (by intro i hi; cases hi), ?_⟩
    intro _ i hi
    rw [h.tbuf] at hi; cases hi
  · intro c hc
    have hw := h.rw c hc
    refine ⟨hw, by rw [h.rinp]; omega, by rw [h.base]; omega, ?_⟩
    intro i p hp; rw [h.rbuf] at hp; cases hp
  · exact h.tp
  · exact h.rp
  · rw [h.queue]; decide
  · intro pkt hp; rw [h.acts] at hp; cases hp
  · intro c n p hp; rw [h.acts] at hp; cases hp

theorem LInv.call {g : Prop} {e : Ep} (h : LInv g e) (a : Call) :
    ((∃ pkt now app, a = .packet pkt now app) ∧ (g ∨ .status 1 ∈ e.acts) ∧ e.call a = none) ∨ ∃ e', e.call a = some e' ∧ LInv g e' := by
  cases a with
  | tx c p now =>
    obtain ⟨r, hr, h1⟩ := h.tx' c p now
    exact Or.inr ⟨r.1, by simp [Ep.call, hr], h1⟩
  | packet pkt now app =>
    rcases h.rxPacket pkt now app with ⟨hb, hr⟩ | ⟨r, hr, h1⟩
    · exact Or.inl ⟨⟨pkt, now, app, rfl⟩, hb, by simp [Ep.call, hr]⟩
    · exact Or.inr ⟨r.1, by simp [Ep.call, hr], h1⟩
  | timer now app =>
    obtain ⟨r, hr, h1⟩ := h.timerExpired now app
    exact Or.inr ⟨r, hr, h1⟩
  | busy c b => exact Or.inr ⟨_, rfl, h.setBusy c b⟩

theorem calls_append (e : Ep) : ∀ l m, e.calls (l ++ m) = (e.calls l).bind fun e => e.calls m := by
  intro l
  induction l generalizing e with
  | nil => intro m; rfl
  | cons a l ih =>
    intro m
    simp only [List.cons_append, Ep.calls]
    cases e.call a with
    | none => rfl
    | some e1 => exact ih e1 m

theorem LInv.calls {g : Prop} : ∀ (l : List Call) {e : Ep}, LInv g e →
    (∃ pre pkt now app post e', l = pre ++ .packet pkt now app :: post ∧ e.calls pre = some e' ∧ (g ∨ .status 1 ∈ e'.acts) ∧ e.calls l = none)
      ∨ ∃ e', e.calls l = some e' ∧ LInv g e'
  | [], e, h => Or.inr ⟨e, rfl, h⟩
  | a :: l, e, h => by
    rcases h.call a with ⟨⟨pkt, now, app, rfl⟩, hb, hn⟩ | ⟨e1, he, h1⟩
    · refine Or.inl ⟨[], pkt, now, app, l, e, rfl, rfl, hb, ?_⟩
      simp [Ep.calls, hn]
    · rcases LInv.calls l h1 with ⟨pre, pkt, now, app, post, e', hl, hp, hb, hn⟩ | ⟨e', hl, h2⟩
      · refine Or.inl ⟨a :: pre, pkt, now, app, post, e', by rw [hl]; rfl, by simp [Ep.calls, he, hp], hb, by simp [Ep.calls, he, hn]⟩
      · exact Or.inr ⟨e', by simp [Ep.calls, he, hl], h2⟩

theorem LInv.put {s : Sys} {x : Bool} {e : Ep} (h : LInv (gaveUp x s.log) e) : LInv (gaveUp x (s.put x e).log) { e with acts := [] } := by
  have hg : gaveUp x s.log ∨ .status 1 ∈ e.acts → gaveUp x (s.put x e).log := by
    intro hh
    rw [put_log]; unfold logOf
    rcases hh with hh | hh
    · exact List.mem_append_left _ hh
    · exact List.mem_append_right _ (List.mem_map.mpr ⟨_, hh, rfl⟩)
  refine ⟨h.tx, ?_, h.rx, h.txp, h.rxp, h.queue, (by intro pkt hp; cases hp), (by intro c n p hp; cases hp)⟩
  intro c hc
  obtain ⟨l, hl⟩ := h.que c hc
  exact ⟨l, hl.mono fun hn hh => hn (Or.inl (hg hh))⟩

theorem LInv.more {g g' : Prop} {e : Ep} (h : LInv g e) (hg : g → g') : LInv g' e := by
  refine ⟨h.tx, ?_, h.rx, h.txp, h.rxp, h.queue, h.sent, h.del⟩
  intro c hc
  obtain ⟨l, hl⟩ := h.que c hc
  exact ⟨l, hl.mono fun hn hh => hn (hh.imp hg id)⟩

/-- Both endpoints are well. -/
structure WInv (s : Sys) : Prop where
  ep : ∀ y, LInv (gaveUp y s.log) (s.ep y)
  sent : ∀ y pkt, (y, .sent pkt) ∈ s.log → 6 ≤ pkt.length ∧ pkt.length ≤ 268

theorem WInv.put {s : Sys} {x : Bool} {e : Ep} (h : WInv s) (he : LInv (gaveUp x s.log) e) : WInv (s.put x e) := by
  refine ⟨two x ?_ ?_, ?_⟩
  · rw [put_ep_same]; exact he.put
  · rw [put_ep_other]
    refine (h.ep _).more ?_
    intro hg
    rw [put_log]; unfold logOf
    exact List.mem_append_left _ hg
  · intro y pkt hm
    rw [put_log] at hm
    unfold logOf at hm
    rcases List.mem_append.mp hm with hm | hm
    · exact h.sent y pkt hm
    · obtain ⟨a, ha, hq⟩ := List.mem_map.mp hm
      cases hq
      exact he.sent pkt ha

theorem WInv.step {s : Sys} (h : WInv s) (hs : ∀ y, (s.ep y).acts = []) (ev : Ev) :
    Well (∃ k now app, ev = .arrive k now app ∧ ∃ x a, s.log[k]? = some (x, a) ∧ gaveUp (!x) s.log) (s.step ev) WInv := by
  cases ev with
  | tx x c p now =>
    obtain ⟨r, hr, h1⟩ := (h.ep x).tx' c p now
    exact Or.inr ⟨s.put x r.1, by simp [Sys.step, hr], h.put h1⟩
  | timer x now app =>
    obtain ⟨r, hr, h1⟩ := (h.ep x).timerExpired now app
    exact Or.inr ⟨s.put x r, by simp [Sys.step, hr], h.put h1⟩
  | busy x c b => exact Or.inr ⟨_, rfl, h.put ((h.ep x).setBusy c b)⟩
  | arrive k now app =>
    unfold Sys.step
    simp only
    split
    · next x pkt hk =>
      split
      · rcases (h.ep (!x)).rxPacket pkt now app with ⟨hb, hr⟩ | ⟨r, hr, h1⟩
        · rw [hr]
          refine Or.inl ⟨⟨k, now, app, rfl, x, _, hk, ?_⟩, rfl⟩
          rw [hs] at hb
          exact hb.resolve_right (by simp)
        · rw [hr]; exact Or.inr ⟨_, rfl, h.put h1⟩
      · exact Or.inr ⟨_, rfl, h⟩
    · exact Or.inr ⟨_, rfl, h⟩

theorem WInv.start {a b : Ep} (ha : New a) (hb : New b) : WInv (Sys.start a b) := by
  refine ⟨?_, by intro y pkt hm; cases hm⟩
  intro y
  cases y
  · exact ha.linv.more (fun h => h.elim)
  · exact hb.linv.more (fun h => h.elim)

theorem WInv.run {s : Sys} (h : WInv s) (hi : SInv s) : ∀ evs : List Ev,
    (∃ pre k now app post s' x a, evs = pre ++ .arrive k now app :: post ∧ s.run pre = some s' ∧ s'.log[k]? = some (x, a) ∧ gaveUp (!x) s'.log
        ∧ s.run evs = none)
      ∨ ∃ s', s.run evs = some s' ∧ WInv s' ∧ SInv s' := by
  intro evs
  induction evs generalizing s with
  | nil => exact Or.inr ⟨s, rfl, h, hi⟩
  | cons ev l ih =>
    rcases h.step hi.acts ev with ⟨⟨k, now, app, rfl, x, a, hk, hb⟩, hn⟩ | ⟨s1, he, h1⟩
    · exact Or.inl ⟨[], k, now, app, l, s, x, a, rfl, rfl, hk, hb, by simp [Sys.run, hn]⟩
    · rcases ih h1 (hi.step he) with ⟨pre, k, now, app, post, s', x, a, hl, hp, hk, hb, hn⟩ | ⟨s', hl, h2⟩
      · exact Or.inl ⟨ev :: pre, k, now, app, post, s', x, a, by rw [hl]; rfl, by simp [Sys.run, he, hp], hk, hb, by simp [Sys.run, he, hn]⟩
      · exact Or.inr ⟨s', by simp [Sys.run, he, hl], h2⟩

end Sprt
