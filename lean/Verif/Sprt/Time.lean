import Verif.Sprt.Again

/-!
# The timer which an endpoint asks for
-/

namespace Sprt

set_option linter.unusedSimpArgs false
set_option linter.unusedVariables false

/-- The timers of an endpoint which has been called until the time `N`, and whose timeouts are `D` or less. -/
structure Tim (N D : Nat) (e : Ep) : Prop where
  d1 : 0 < e.ta01Timeout ∧ e.ta01Timeout ≤ D
  d2 : ∀ c, Rel c → 0 < (e.tx c).ta02Timeout ∧ (e.tx c).ta02Timeout ≤ D
  d3 : ∀ c, Rel c → (e.tx c).tr03Timeout ≤ D
  t1 : e.ta01Timer ≤ N + D
  t2 : ∀ c, Rel c → (e.tx c).ta02Timer ≤ N + D
  t3 : ∀ c, Rel c → ∀ i, (e.tx c).timer i ≤ N + D
  z1 : e.ackQueue ≠ [] → e.ta01Timer ≠ 0
  z2 : ∀ c, Rel c → ∀ i, ((e.tx c).buf i).isSome → (e.tx c).ta02Timer ≠ 0

/-- And it has asked for a timer when one of its own runs. -/
structure Tm (N D : Nat) (e : Ep) : Prop where
  tim : Tim N D e
  pos : 1 ≤ N + D
  lat : e.latest ≤ N + D
  run : (e.immediate = true ∨ e.ta01Timer ≠ 0 ∨ ∃ c, Rel c ∧ (e.tx c).ta02Timer ≠ 0) → e.latest ≠ 0

/-- Nothing of this has changed. -/
structure TS (e e' : Ep) : Prop where
  tx : e'.tx = e.tx
  q : e'.ackQueue = e.ackQueue
  o : e'.ta01Timeout = e.ta01Timeout
  t : e'.ta01Timer = e.ta01Timer
  imm : e'.immediate = e.immediate
  lat : e'.latest = e.latest

theorem TS.refl (e : Ep) : TS e e := ⟨rfl, rfl, rfl, rfl, rfl, rfl⟩
theorem TS.trans {a b c : Ep} (h : TS a b) (k : TS b c) : TS a c :=
  ⟨k.tx.trans h.tx, k.q.trans h.q, k.o.trans h.o, k.t.trans h.t, k.imm.trans h.imm, k.lat.trans h.lat⟩

theorem Tim.ts {N D : Nat} {e e' : Ep} (h : Tim N D e) (k : TS e e') : Tim N D e' := by
  constructor
  · rw [k.o]; exact h.d1
  · rw [k.tx]; exact h.d2
  · rw [k.tx]; exact h.d3
  · rw [k.t]; exact h.t1
  · rw [k.tx]; exact h.t2
  · rw [k.tx]; exact h.t3
  · rw [k.q, k.t]; exact h.z1
  · rw [k.tx]; exact h.z2

theorem Tm.ts {N D : Nat} {e e' : Ep} (h : Tm N D e) (k : TS e e') : Tm N D e' := by
  refine ⟨h.tim.ts k, h.pos, ?_, ?_⟩
  · rw [k.lat]; exact h.lat
  · rw [k.imm, k.t, k.tx, k.lat]; exact h.run

theorem Tim.mono {N N' D : Nat} {e : Ep} (h : Tim N D e) (hn : N ≤ N') : Tim N' D e :=
  ⟨h.d1, h.d2, h.d3, by have := h.t1; omega, fun c hc => by have := h.t2 c hc; omega, fun c hc i => by have := h.t3 c hc i; omega, h.z1, h.z2⟩

theorem Tm.mono {N N' D : Nat} {e : Ep} (h : Tm N D e) (hn : N ≤ N') : Tm N' D e :=
  ⟨h.tim.mono hn, by have := h.pos; omega, by have := h.lat; omega, h.run⟩

theorem sooner_le (t s : Nat) : sooner t s ≤ s ∧ (t ≠ 0 → sooner t s ≤ t) ∧ (s ≠ 0 → sooner t s ≠ 0) ∧ (sooner t s = s ∨ sooner t s = t) := by
  unfold sooner
  split <;> omega

theorem chanSooner_le (ch : TxChan) (s : Nat) : chanSooner ch s ≤ s ∧ (ch.ta02Timer ≠ 0 → chanSooner ch s ≤ ch.ta02Timer)
    ∧ (ch.first ≠ 255 → ch.timer ch.first ≠ 0 → chanSooner ch s ≤ ch.timer ch.first) ∧ (s ≠ 0 → chanSooner ch s ≠ 0) := by
  unfold chanSooner
  have h1 := sooner_le ch.ta02Timer s
  have h2 := sooner_le (ch.timer ch.first) (sooner ch.ta02Timer s)
  simp only
  split
  · refine ⟨by omega, ?_, fun _ => h2.2.1, ?_⟩
    · intro h; have := h1.2.1 h; omega
    · intro h; exact h2.2.2.1 (h1.2.2.1 h)
  · next h => exact ⟨h1.1, h1.2.1, fun hh => absurd hh (by simpa using h), h1.2.2.1⟩

/-- The timer which is asked for is the soonest of those which run: what waits to be acknowledged, the keepalives, and what is first in
the queue of each channel. -/
theorem updateTimer_soonest {e : Ep} (hi : e.immediate = false) : (updateTimer e).latest = 0 ∨
    ((e.ta01Timer ≠ 0 → (updateTimer e).latest ≤ e.ta01Timer) ∧ ∀ c, Rel c → ((e.tx c).ta02Timer ≠ 0 → (updateTimer e).latest ≤ (e.tx c).ta02Timer)
      ∧ ((e.tx c).first ≠ 255 → (e.tx c).timer (e.tx c).first ≠ 0 → (updateTimer e).latest ≤ (e.tx c).timer (e.tx c).first)) := by
  unfold updateTimer
  rw [if_neg (by simp [hi])]
  have h0 := sooner_le e.ta01Timer (2 ^ 64 - 1)
  have h1 := chanSooner_le (e.tx 1) (sooner e.ta01Timer (2 ^ 64 - 1))
  have h2 := chanSooner_le (e.tx 2) (chanSooner (e.tx 1) (sooner e.ta01Timer (2 ^ 64 - 1)))
  generalize chanSooner (e.tx 2) (chanSooner (e.tx 1) (sooner e.ta01Timer (2 ^ 64 - 1))) = z at *
  generalize chanSooner (e.tx 1) (sooner e.ta01Timer (2 ^ 64 - 1)) = y at *
  generalize sooner e.ta01Timer (2 ^ 64 - 1) = x at *
  simp only
  split
  · exact Or.inl rfl
  · right
    refine ⟨fun h => Nat.le_trans h2.1 (Nat.le_trans h1.1 (h0.2.1 h)), ?_⟩
    rintro c (rfl | rfl)
    · exact ⟨fun h => Nat.le_trans h2.1 (h1.2.1 h), fun h k => Nat.le_trans h2.1 (h1.2.2.1 h k)⟩
    · exact ⟨h2.2.1, h2.2.2.1⟩

theorem updateTimer_TS (e : Ep) : TS e { updateTimer e with latest := e.latest } := by
  unfold updateTimer
  split <;> exact ⟨rfl, rfl, rfl, rfl, rfl, rfl⟩

theorem Tim.congr {N D : Nat} {e e' : Ep} (h : Tim N D e) (k1 : e'.tx = e.tx) (k2 : e'.ackQueue = e.ackQueue) (k3 : e'.ta01Timeout = e.ta01Timeout)
    (k4 : e'.ta01Timer = e.ta01Timer) : Tim N D e' := by
  constructor
  · rw [k3]; exact h.d1
  · rw [k1]; exact h.d2
  · rw [k1]; exact h.d3
  · rw [k4]; exact h.t1
  · rw [k1]; exact h.t2
  · rw [k1]; exact h.t3
  · rw [k2, k4]; exact h.z1
  · rw [k1]; exact h.z2

theorem Tim.updateTimer {N D : Nat} {e : Ep} (hp : 1 ≤ N + D) (hN : N + D < 2 ^ 64 - 1) (h : Tim N D e) : Tm N D (updateTimer e) := by
  refine ⟨?_, hp, ?_, ?_⟩
  · have := updateTimer_TS e
    exact h.congr this.tx this.q this.o this.t
  · unfold Sprt.updateTimer
    split
    · exact hp
    · show (if _ = 2 ^ 64 - 1 then 0 else _) ≤ N + D
      have hs : ∀ t s, t ≤ N + D → (s = 2 ^ 64 - 1 ∨ s ≤ N + D) → (sooner t s = 2 ^ 64 - 1 ∨ sooner t s ≤ N + D) := by
        intro t s ht hs
        unfold sooner
        split
        · exact Or.inr ht
        · exact hs
      have hc : ∀ c, Rel c → ∀ s, (s = 2 ^ 64 - 1 ∨ s ≤ N + D) → (chanSooner (e.tx c) s = 2 ^ 64 - 1 ∨ chanSooner (e.tx c) s ≤ N + D) := by
        intro c hc s h1
        unfold chanSooner
        simp only
        split
        · exact hs _ _ (h.t3 c hc _) (hs _ _ (h.t2 c hc) h1)
        · exact hs _ _ (h.t2 c hc) h1
      have := hc 2 (Or.inr rfl) _ (hc 1 (Or.inl rfl) _ (hs e.ta01Timer (2 ^ 64 - 1) h.t1 (Or.inl rfl)))
      split
      · omega
      · next hne => exact this.resolve_left hne
  · intro hr
    by_cases him : e.immediate = true
    · unfold Sprt.updateTimer
      rw [if_pos him]; exact Nat.one_ne_zero
    · have hts := updateTimer_TS e
      unfold Sprt.updateTimer
      rw [if_neg him]
      show (if _ = 2 ^ 64 - 1 then 0 else _) ≠ 0
      have h0 := sooner_le e.ta01Timer (2 ^ 64 - 1)
      have h1 := chanSooner_le (e.tx 1) (sooner e.ta01Timer (2 ^ 64 - 1))
      have h2 := chanSooner_le (e.tx 2) (chanSooner (e.tx 1) (sooner e.ta01Timer (2 ^ 64 - 1)))
      have hnz := h2.2.2.2 (h1.2.2.2 (h0.2.2.1 (by decide)))
      rw [if_neg]
      · exact hnz
      · have e1 : (Sprt.updateTimer e).ta01Timer = e.ta01Timer := hts.t
        have e2 : (Sprt.updateTimer e).immediate = e.immediate := hts.imm
        rw [e1, e2, updateTimer_tx] at hr
        rcases hr with hr | hr | ⟨c, hc, hr⟩
        · exact absurd hr him
        · have := h0.2.1 hr
          have := h.t1
          omega
        · rcases hc with rfl | rfl
          · have := h1.2.1 hr
            have := h.t2 1 (Or.inl rfl)
            omega
          · have := h2.2.1 hr
            have := h.t2 2 (Or.inr rfl)
            omega

section
variable {N D : Nat} (hp : 1 ≤ N + D) (hN : N + D < 2 ^ 64 - 1)
include hp hN

theorem Tim.buildSend {e : Ep} (h : Tim N D e) (c seq : Nat) (p : List Nat) : Tm N D (buildSend e c seq p) := by
  unfold Sprt.buildSend
  simp only
  refine Tim.updateTimer hp hN ?_
  split
  · exact ⟨h.d1, h.d2, h.d3, Nat.zero_le _, h.t2, h.t3, fun hh => absurd rfl hh, h.z2⟩
  · exact h.congr rfl rfl rfl rfl

theorem Tm.queueAckEntry {e : Ep} (h : Tm N D e) (c seq : Nat) {now : Nat} (hnow : now ≤ N) : Tm N D (queueAckEntry e c seq now) := by
  unfold Sprt.queueAckEntry
  have hd := h.tim.d1
  split
  · exact h
  · simp only
    split
    · refine Tim.updateTimer hp hN ⟨h.tim.d1, h.tim.d2, h.tim.d3, ?_, h.tim.t2, h.tim.t3, ?_, h.tim.z2⟩
      · show now + e.ta01Timeout ≤ N + D
        omega
      · intro _
        show now + e.ta01Timeout ≠ 0
        omega
    · next h1 =>
      have hz : e.ta01Timer ≠ 0 := by
        refine h.tim.z1 ?_
        intro hh
        rw [hh] at h1
        exact h1 rfl
      have hT : Tim N D { e with ackQueue := e.ackQueue ++ [c * 16384 + seq] } :=
        ⟨h.tim.d1, h.tim.d2, h.tim.d3, h.tim.t1, h.tim.t2, h.tim.t3, fun _ => hz, h.tim.z2⟩
      split
      · exact Tim.buildSend hp hN hT _ _ _
      · exact ⟨hT, hp, h.lat, h.run⟩

theorem Tm.queueAck {e : Ep} (h : Tm N D e) (c seq : Nat) {now : Nat} (hnow : now ≤ N) : Tm N D (queueAck e c seq now) := by
  unfold Sprt.queueAck
  split
  · exact Tm.queueAckEntry hp hN (Tim.buildSend hp hN h.tim _ _ _) c seq hnow
  · exact Tm.queueAckEntry hp hN h c seq hnow
end

/-- One channel changes. -/
theorem Tim.setTx {N D : Nat} {e : Ep} (h : Tim N D e) (c : Nat) {s : TxChan} (h1 : Rel c → 0 < s.ta02Timeout ∧ s.ta02Timeout ≤ D) (h2 : Rel c → s.tr03Timeout ≤ D)
    (h3 : Rel c → s.ta02Timer ≤ N + D) (h4 : Rel c → ∀ i, s.timer i ≤ N + D) (h5 : Rel c → ∀ i, (s.buf i).isSome → s.ta02Timer ≠ 0) : Tim N D (e.setTx c s) := by
  have hh : ∀ {P : TxChan → Prop}, (∀ d, Rel d → P (e.tx d)) → (Rel c → P s) → ∀ d, Rel d → P ((e.setTx c s).tx d) := by
    intro P ho hs d hd
    by_cases hdc : d = c
    · subst hdc; rw [show (e.setTx d s).tx d = s from upd_eq _ _ _]; exact hs hd
    · rw [show (e.setTx c s).tx d = e.tx d from upd_ne _ _ hdc]; exact ho d hd
  exact ⟨h.d1, hh (P := fun s => 0 < s.ta02Timeout ∧ s.ta02Timeout ≤ D) h.d2 h1, hh (P := fun s => s.tr03Timeout ≤ D) h.d3 h2, h.t1,
    hh (P := fun s => s.ta02Timer ≤ N + D) h.t2 h3, hh (P := fun s => ∀ i, s.timer i ≤ N + D) h.t3 h4, h.z1,
    hh (P := fun s => ∀ i, (s.buf i).isSome → s.ta02Timer ≠ 0) h.z2 h5⟩

/-- One channel changes, but not its keepalive. -/
theorem Tm.setTx {N D : Nat} {e : Ep} (h : Tm N D e) (c : Nat) {s : TxChan} (h1 : s.ta02Timeout = (e.tx c).ta02Timeout) (h2 : s.tr03Timeout = (e.tx c).tr03Timeout)
    (h3 : s.ta02Timer = (e.tx c).ta02Timer) (h4 : ∀ i, s.timer i = (e.tx c).timer i ∨ s.timer i = 0) (h5 : ∀ i, (s.buf i).isSome → ((e.tx c).buf i).isSome) : Tm N D (e.setTx c s) := by
  refine ⟨h.tim.setTx c (fun hc => by rw [h1]; exact h.tim.d2 c hc) (fun hc => by rw [h2]; exact h.tim.d3 c hc) (fun hc => by rw [h3]; exact h.tim.t2 c hc) ?_ ?_, h.pos, h.lat, ?_⟩
  · intro hc i
    rcases h4 i with h | h'
    · rw [h]; exact ‹Tm N D e›.tim.t3 c hc i
    · rw [h']; exact Nat.zero_le _
  · intro hc i hi
    rw [h3]; exact h.tim.z2 c hc i (h5 i hi)
  · intro hr
    refine h.run ?_
    rcases hr with hr | hr | ⟨d, hd, hr⟩
    · exact Or.inl hr
    · exact Or.inr (Or.inl hr)
    · refine Or.inr (Or.inr ⟨d, hd, ?_⟩)
      by_cases hdc : d = c
      · subst hdc
        rw [show (e.setTx d s).tx d = s from upd_eq _ _ _, h3] at hr
        exact hr
      · rw [show (e.setTx c s).tx d = e.tx d from upd_ne _ _ hdc] at hr
        exact hr

theorem Tm.processAck {N D : Nat} {e e' : Ep} (h : Tm N D e) {c sqn : Nat} (ha : processAck e c sqn = some e') : Tm N D e' := by
  unfold Sprt.processAck at ha
  simp only at ha
  split at ha
  · split at ha
    · generalize (if (e.tx c).inPtr < ((e.tx c).queueSeq + 16384 - sqn) % 16384 then
          (e.tx c).inPtr + (e.tx c).window - ((e.tx c).queueSeq + 16384 - sqn) % 16384
        else (e.tx c).inPtr - ((e.tx c).queueSeq + 16384 - sqn) % 16384) = slot at ha
      split at ha
      · split at ha
        · generalize hz : delTimer _ _ = z at ha
          rcases z with _ | ch
          · cases ha
          · obtain ⟨fi, la, pr, ne, rfl⟩ := delTimer_frame hz
            simp only [Option.bind_some] at ha
            cases ha
            have hb : ∀ i, ((upd (e.tx c).buf slot none) i).isSome → ((e.tx c).buf i).isSome := by
              intro i hi
              unfold upd at hi
              split at hi
              · cases hi
              · exact hi
            have ht : ∀ i, (upd (e.tx c).timer slot 0) i = (e.tx c).timer i ∨ (upd (e.tx c).timer slot 0) i = 0 := by
              intro i
              unfold upd
              split
              · exact Or.inr rfl
              · exact Or.inl rfl
            split
            · exact h.setTx c (by rfl) (by rfl) (by rfl) ht hb
            · exact h.setTx c (by rfl) (by rfl) (by rfl) ht hb
        · cases ha; exact h
      · cases ha
    · cases ha; exact h
  · cases ha; exact h

theorem Tm.processAcks {N D : Nat} : ∀ l {e e' : Ep}, Tm N D e → processAcks e l = some e' → Tm N D e'
  | [], e, e', h, ha => by cases ha; exact h
  | a :: l, e, e', h, ha => by
    unfold Sprt.processAcks at ha
    rcases hq : Sprt.processAck e (a / 16384 % 4) (a % 16384) with _ | e1
    · rw [hq] at ha; cases ha
    · rw [hq] at ha
      exact Tm.processAcks l (h.processAck hq) ha

theorem deliverLoop_TS {c : Nat} : ∀ n {e : Ep} {i : Nat} {app : List Bool} {r : Ep × Nat × List Bool}, deliverLoop c n e i app = some r → TS e r.1 := by
  intro n
  induction n with
  | zero => intro e i app r h; cases h
  | succ n ih =>
    intro e i app r h
    unfold deliverLoop at h
    simp only at h
    split at h
    · split at h
      · cases h; exact TS.refl _
      · split at h
        · cases h; exact TS.refl _
        · refine TS.trans ?_ (ih h)
          exact ⟨rfl, rfl, rfl, rfl, rfl, rfl⟩
    · cases h

theorem deliverChan_TS {c : Nat} {e : Ep} {i : Nat} {app : List Bool} {r : Ep × List Bool} (h : deliverChan e c i app = some r) : TS e r.1 := by
  unfold deliverChan at h
  rcases hq : deliverLoop c 98 e i app with _ | r1
  · rw [hq] at h; cases h
  · rw [hq] at h
    cases h
    exact (deliverLoop_TS 98 hq).trans ⟨rfl, rfl, rfl, rfl, rfl, rfl⟩

theorem deliver_TS {e : Ep} {app : List Bool} {r : Ep × List Bool} (h : deliver e app = some r) : TS e r.1 := by
  unfold deliver at h
  rcases hq : deliverChan e 1 (e.rx 1).inPtr app with _ | r1
  · rw [hq] at h; cases h
  · rw [hq] at h
    simp only [Option.bind_some] at h
    exact (deliverChan_TS hq).trans (deliverChan_TS h)

section
variable {N D : Nat} (hp : 1 ≤ N + D) (hN : N + D < 2 ^ 64 - 1)
include hp hN

theorem Tm.rxPayload {e e' : Ep} {c seq now : Nat} {p : List Nat} {app : List Bool} (hnow : now ≤ N) (h : Tm N D e) (hr : rxPayload e c seq p now app = some e') : Tm N D e' := by
  unfold Sprt.rxPayload at hr
  split at hr
  · cases hr; exact h
  · have hk := Tm.queueAck hp hN h c seq hnow
    split at hr
    · split at hr
      · unfold rxNext at hr
        simp only at hr
        split at hr
        · split at hr
          · cases hr
            exact hk.ts ⟨rfl, rfl, rfl, rfl, rfl, rfl⟩
          · generalize hz : Sprt.deliverChan _ c _ app.tail = z at hr
            rcases z with _ | r
            · cases hr
            · cases hr
              refine Tm.ts ?_ (deliverChan_TS hz)
              exact hk.ts ⟨rfl, rfl, rfl, rfl, rfl, rfl⟩
        · cases hr
      · unfold rxOther at hr
        simp only at hr
        split at hr
        · generalize (if (e.rx c).inPtr + (seq + 16384 - (e.rx c).baseSeq) % 16384 ≥ (e.rx c).window then
              (e.rx c).inPtr + (seq + 16384 - (e.rx c).baseSeq) % 16384 - (e.rx c).window
            else (e.rx c).inPtr + (seq + 16384 - (e.rx c).baseSeq) % 16384) = i at hr
          split at hr
          · cases hr
            exact hk.ts ⟨rfl, rfl, rfl, rfl, rfl, rfl⟩
          · cases hr
        · split at hr
          · cases hr
            exact hk.ts ⟨rfl, rfl, rfl, rfl, rfl, rfl⟩
          · cases hr; exact h
    · cases hr; exact h.ts ⟨rfl, rfl, rfl, rfl, rfl, rfl⟩

theorem Tm.rxBody {e : Ep} {pkt : List Nat} {now : Nat} {app : List Bool} {r : Ep × Bool} (hnow : now ≤ N) (h : Tm N D e) (hr : rxBody e pkt now app = some r) : Tm N D r.1 := by
  unfold Sprt.rxBody at hr
  simp only at hr
  have h1 : Tm N D (e.setTx (get16 pkt 2 / 16384 % 4) { e.tx (get16 pkt 2 / 16384 % 4) with baseSeq := get16 pkt 4 % 16384 }) :=
    h.setTx _ (by rfl) (by rfl) (by rfl) (fun _ => Or.inl rfl) (fun _ h => h)
  split at hr
  · cases hr; exact h1
  · generalize hz : Sprt.processAcks _ _ = z at hr
    rcases z with _ | e1
    · cases hr
    · simp only [Option.bind_some] at hr
      generalize hy : Sprt.rxPayload _ _ _ _ _ _ = y at hr
      rcases y with _ | e2
      · cases hr
      · cases hr
        exact Tm.rxPayload hp hN hnow (Tm.processAcks _ h1 hz) hy

theorem Tm.rxPacket {e : Ep} {pkt : List Nat} {now : Nat} {app : List Bool} {r : Ep × Bool} (hnow : now ≤ N) (h : Tm N D e) (hr : rxPacket e pkt now app = some r) : Tm N D r.1 := by
  rw [rxPacket_eq] at hr; unfold rxPlain at hr
  simp only at hr
  split at hr
  · cases hr; exact h
  split at hr
  · cases hr; exact h
  split at hr
  · cases hr; exact h
  split at hr
  · refine Tm.rxBody hp hN hnow ?_ hr
    exact h.ts ⟨rfl, rfl, rfl, rfl, rfl, rfl⟩
  split at hr
  · cases hr; exact h.ts ⟨rfl, rfl, rfl, rfl, rfl, rfl⟩
  · exact Tm.rxBody hp hN hnow h hr

theorem Tim.requeue {e e' : Ep} {c i now : Nat} (hnow : now ≤ N) (h : Tim N D e) (hi : (e.tx c).timer i ≤ now) (hr : requeue e c i = some e') : Tim N D e' := by
  unfold Sprt.requeue at hr
  rcases hd : delTimer (e.tx c) i with _ | ch
  · rw [hd] at hr; cases hr
  · rw [hd] at hr
    obtain ⟨fi, la, pr, ne, rfl⟩ := delTimer_frame hd
    simp only [Option.bind_some] at hr
    split at hr
    · cases hr
      have h1 : Tim N D (e.setTx c { e.tx c with first := fi, last := la, prev := pr, next := ne, tries := upd (e.tx c).tries i (((e.tx c).tries i + 255) % 256) }) :=
        h.setTx c (fun hc => h.d2 c hc) (fun hc => h.d3 c hc) (fun hc => h.t2 c hc) (fun hc => h.t3 c hc) (fun hc => h.z2 c hc)
      exact h1.congr rfl rfl rfl rfl
    · generalize hz : addTimer _ i = z at hr
      rcases z with _ | ch2
      · cases hr
      · obtain ⟨fi, la, pr, ne, rfl⟩ := addTimer_frame hz
        cases hr
        refine h.setTx c (fun hc => h.d2 c hc) (fun hc => h.d3 c hc) (fun hc => h.t2 c hc) ?_ (fun hc => h.z2 c hc)
        intro hc j
        show upd (e.tx c).timer i ((e.tx c).timer i + (e.tx c).tr03Timeout) j ≤ N + D
        unfold upd
        split
        · have := h.d3 c hc; omega
        · exact h.t3 c hc j

theorem Tim.retransmit {c now : Nat} (hnow : now ≤ N) : ∀ n {e : Ep} {b : Bool} {r : Ep × Bool}, Tim N D e → retransmit c now n e b = some r → Tim N D r.1 := by
  intro n
  induction n with
  | zero => intro e b r _ h; cases h
  | succ n ih =>
    intro e b r h hr
    unfold Sprt.retransmit at hr
    simp only at hr
    split at hr
    · cases hr; exact h
    · split at hr
      · split at hr
        · next ht =>
          split at hr
          · generalize hz : Sprt.requeue _ c _ = z at hr
            rcases z with _ | e1
            · cases hr
            · exact ih (Tim.requeue hp hN hnow (Tim.buildSend hp hN h _ _ _).tim (by rw [buildSend_tx]; exact ht) hz) hr
          · generalize hz : Sprt.requeue _ c _ = z at hr
            rcases z with _ | e1
            · cases hr
            · exact ih (Tim.requeue hp hN hnow h ht hz) hr
        · cases hr; exact h
      · cases hr

theorem Tim.timerChan {c now : Nat} (hc : Rel c) (hnow : now ≤ N) {e : Ep} {r : Ep × Bool} (h : Tim N D e) (hr : timerChan e c now = some r) : Tim N D r.1 := by
  unfold Sprt.timerChan at hr
  rcases hz : Sprt.retransmit c now 30000 e false with _ | ⟨e1, b⟩
  · rw [hz] at hr; cases hr
  · rw [hz] at hr
    have h1 := Tim.retransmit hp hN hnow _ h hz
    simp only [Option.bind_some] at hr
    have hk : ∀ (keep : Bool), Tim N D (if keep = true then Sprt.buildSend e1 c 0 [] else e1) := by
      intro keep
      split
      · exact (Tim.buildSend hp hN h1 _ _ _).tim
      · exact h1
    split at hr
    · split at hr
      · cases hr
        refine (hk _).setTx c ((hk _).d2 c) ((hk _).d3 c) ?_ ((hk _).t3 c) ?_
        · intro hc
          have h2 := (hk (decide ((e1.tx c).ta02Timer ≤ now) && !b)).d2 c hc
          show now + _ ≤ N + D
          omega
        · intro hc i hi
          have h2 := (hk (decide ((e1.tx c).ta02Timer ≤ now) && !b)).d2 c hc
          show now + _ ≠ 0
          omega
      · cases hr; exact hk _
    · cases hr; exact h1

theorem Tm.timerExpired {e e' : Ep} {now : Nat} {app : List Bool} (hnow : now ≤ N) (h : Tm N D e) (hr : timerExpired e now app = some e') : Tm N D e' := by
  unfold Sprt.timerExpired at hr
  split at hr
  · cases hr; exact h
  · unfold timerDue at hr
    generalize hz : (if e.immediate = true then (deliver { e with immediate := false } app).bind fun r => some r.1 else some e) = z at hr
    rcases z with _ | e1
    · cases hr
    · simp only [Option.bind_some] at hr
      have h1 : Tim N D e1 := by
        split at hz
        · rcases hd : deliver { e with immediate := false } app with _ | r
          · rw [hd] at hz; cases hz
          · rw [hd] at hz
            cases hz
            exact (h.tim.congr (e' := { e with immediate := false }) rfl rfl rfl rfl).ts (deliver_TS hd)
        · cases hz; exact h.tim
      rcases hq : timerChan e1 1 now with _ | r1
      · rw [hq] at hr; cases hr
      · rw [hq] at hr
        simp only [Option.bind_some] at hr
        rcases hq2 : timerChan r1.1 2 now with _ | r2
        · rw [hq2] at hr; cases hr
        · rw [hq2] at hr
          simp only [Option.bind_some] at hr
          have hs := Tim.timerChan hp hN (Or.inr rfl) hnow (Tim.timerChan hp hN (Or.inl rfl) hnow h1 hq) hq2
          cases hr
          refine Tim.updateTimer hp hN ?_
          split
          · exact (Tim.buildSend hp hN hs _ _ _).tim
          · exact hs

theorem Tm.setBusy {e : Ep} (h : Tm N D e) (c : Nat) (b : Bool) : Tm N D (setBusy e c b) := by
  unfold Sprt.setBusy
  split
  · simp only
    split
    · exact Tim.updateTimer hp hN (h.tim.congr rfl rfl rfl rfl)
    · exact h.ts ⟨rfl, rfl, rfl, rfl, rfl, rfl⟩
  · exact h

theorem Tm.tx' {e : Ep} {c now : Nat} {p : List Nat} {r : Ep × Bool} (hnow : now ≤ N) (h : Tm N D e) (hr : Sprt.tx e c p now = some r) : Tm N D r.1 := by
  unfold Sprt.tx at hr
  split at hr
  · cases hr; exact h
  · split at hr
    · cases hr; exact h
    · split at hr
      · next hc =>
        unfold txReliable at hr
        simp only at hr
        by_cases hroom : (if (e.tx c).outPtr < (e.tx c).inPtr + 1 then (e.tx c).outPtr + (e.tx c).window - ((e.tx c).inPtr + 1)
            else (e.tx c).outPtr - ((e.tx c).inPtr + 1)) < 1
        · rw [if_pos hroom] at hr
          cases hr; exact h
        · rw [if_neg hroom] at hr
          split at hr
          · generalize hz : addTimer _ _ = z at hr
            rcases z with _ | ch
            · cases hr
            · obtain ⟨fi, la, pr, ne, rfl⟩ := addTimer_frame hz
              cases hr
              refine Tim.buildSend hp hN ?_ _ _ _
              have h2 := h.tim.d2 c hc
              have h3 := h.tim.d3 c hc
              generalize hch : (TxChan.mk _ _ _ _ _ _ _ _ _ _ _ _ _ _ _ _ _ : TxChan) = ch
              refine Tim.congr (e := e.setTx c ch) ?_ rfl rfl rfl rfl
              subst hch
              refine h.tim.setTx c (fun hc => h.tim.d2 c hc) (fun hc => h.tim.d3 c hc) ?_ ?_ ?_
              · intro _; show now + (e.tx c).ta02Timeout ≤ N + D; omega
              · intro hc j
                show upd (e.tx c).timer (e.tx c).inPtr (now + (e.tx c).tr03Timeout) j ≤ N + D
                unfold upd
                split
                · omega
                · exact h.tim.t3 c hc j
              · intro _ i _; show now + (e.tx c).ta02Timeout ≠ 0; omega
          · cases hr
      · split at hr
        · cases hr
          refine Tim.buildSend hp hN ?_ _ _ _
          exact h.tim.congr rfl rfl rfl rfl
        · cases hr
          have h1 : Tm N D (Sprt.buildSend (e.emit (.accepted c p)) c (e.tx c).queueSeq p) := by
            refine Tim.buildSend hp hN ?_ _ _ _
            exact h.tim.congr rfl rfl rfl rfl
          exact h1.setTx c (by rfl) (by rfl) (by rfl) (fun _ => Or.inl rfl) (fun _ h => h)
end

/-- The time of an event. -/
def Ev.time : Ev → Nat
  | .tx _ _ _ now => now
  | .arrive _ now _ => now
  | .timer _ now _ => now
  | .busy _ _ _ => 0

/-- The timeouts of an endpoint are between 1 and `D`. -/
def Timeouts (D : Nat) (e : Ep) : Prop :=
  (0 < e.ta01Timeout ∧ e.ta01Timeout ≤ D) ∧ ∀ c, c = 1 ∨ c = 2 → (0 < (e.tx c).ta02Timeout ∧ (e.tx c).ta02Timeout ≤ D) ∧ (e.tx c).tr03Timeout ≤ D

theorem Tm.put {N D : Nat} {s : Sys} (h : ∀ y, Tm N D (s.ep y)) {x : Bool} {e : Ep} (he : Tm N D e) : ∀ y, Tm N D ((s.put x e).ep y) := by
  refine two x ?_ ?_
  · rw [put_ep_same]; exact he.ts ⟨rfl, rfl, rfl, rfl, rfl, rfl⟩
  · rw [put_ep_other]; exact h _

theorem Tm.step {N D : Nat} (hp : 1 ≤ N + D) (hN : N + D < 2 ^ 64 - 1) {s s' : Sys} (h : ∀ y, Tm N D (s.ep y)) {ev : Ev} (ht : ev.time ≤ N) (hs : s.step ev = some s') :
    ∀ y, Tm N D (s'.ep y) := by
  cases ev with
  | tx x c p now =>
    rcases hq : Sprt.tx (s.ep x) c p now with _ | r
    · simp [Sys.step, hq] at hs
    · simp [Sys.step, hq] at hs
      subst hs
      exact Tm.put h (Tm.tx' hp hN ht (h x) hq)
  | timer x now app =>
    rcases hq : Sprt.timerExpired (s.ep x) now app with _ | r
    · simp [Sys.step, hq] at hs
    · simp [Sys.step, hq] at hs
      subst hs
      exact Tm.put h (Tm.timerExpired hp hN ht (h x) hq)
  | busy x c b =>
    cases hs
    exact Tm.put h (Tm.setBusy hp hN (h x) c b)
  | arrive k now app =>
    unfold Sys.step at hs
    simp only at hs
    split at hs
    · next x pkt hk =>
      split at hs
      · rcases hq : Sprt.rxPacket (s.ep !x) pkt now app with _ | r
        · rw [hq] at hs; cases hs
        · rw [hq] at hs
          cases hs
          exact Tm.put h (Tm.rxPacket hp hN ht (h _) hq)
      · cases hs; exact h
    · cases hs; exact h

theorem Tm.run' {N D : Nat} (hp : 1 ≤ N + D) (hN : N + D < 2 ^ 64 - 1) : ∀ evs {s s' : Sys}, (∀ y, Tm N D (s.ep y)) → (∀ ev ∈ evs, ev.time ≤ N) → s.run evs = some s' →
    ∀ y, Tm N D (s'.ep y)
  | [], s, s', h, _, hs => by cases hs; exact h
  | ev :: l, s, s', h, ht, hs => by
    unfold Sys.run at hs
    rcases hq : s.step ev with _ | s1
    · rw [hq] at hs; cases hs
    · rw [hq] at hs
      exact Tm.run' hp hN l (Tm.step hp hN h (ht ev List.mem_cons_self) hq) (fun e he => ht e (List.mem_cons_of_mem _ he)) hs

/-- What `sprt_init` and the functions which set an endpoint up leave of the timers. -/
theorem opened_timers {e : Ep} (h : Opened e) : (∀ c, (e.tx c).ta02Timer = 0) ∧ (∀ c i, (e.tx c).timer i = 0) ∧ e.latest = 0 := by
  obtain ⟨sub, rt, tt, parms, e0, sets, h0, rfl⟩ := h
  have he : (∀ c, (e0.tx c).ta02Timer = 0) ∧ (∀ c i, (e0.tx c).timer i = 0) ∧ e0.latest = 0 := by
    unfold init at h0
    cases parms with
    | none => rw [← Option.some.inj h0]; exact ⟨fun _ => rfl, fun _ _ => rfl, rfl⟩
    | some p =>
      simp only at h0
      split at h0
      · rw [← Option.some.inj h0]; exact ⟨fun _ => rfl, fun _ _ => rfl, rfl⟩
      · cases h0
  clear h0
  induction sets generalizing e0 with
  | nil => exact he
  | cons s l ih =>
    refine ih _ ?_
    have hset : ∀ (c : Nat) (ch : TxChan), ch.ta02Timer = (e0.tx c).ta02Timer → ch.timer = (e0.tx c).timer →
        (∀ d, ((e0.setTx c ch).tx d).ta02Timer = 0) ∧ (∀ d i, ((e0.setTx c ch).tx d).timer i = 0) ∧ (e0.setTx c ch).latest = 0 := by
      intro c ch h1 h2
      refine ⟨?_, ?_, he.2.2⟩
      · intro d
        by_cases hdc : d = c
        · subst hdc; rw [show (e0.setTx d ch).tx d = ch from upd_eq _ _ _, h1]; exact he.1 d
        · rw [show (e0.setTx c ch).tx d = e0.tx d from upd_ne _ _ hdc]; exact he.1 d
      · intro d i
        by_cases hdc : d = c
        · subst hdc; rw [show (e0.setTx d ch).tx d = ch from upd_eq _ _ _, h2]; exact he.2.1 d i
        · rw [show (e0.setTx c ch).tx d = e0.tx d from upd_ne _ _ hdc]; exact he.2.1 d i
    cases s with
    | localWindow c n => unfold Ep.set setLocalWindow; simp only; split <;> exact he
    | localPayload c n => unfold Ep.set setLocalPayload; simp only; split <;> exact he
    | farWindow c n => unfold Ep.set setFarWindow; simp only; split; exact hset _ _ rfl rfl; exact he
    | farPayload c n => unfold Ep.set setFarPayload; simp only; split; exact hset _ _ rfl rfl; exact he
    | maxTries c n => unfold Ep.set setMaxTries; simp only; split; exact hset _ _ rfl rfl; exact he
    | ta01 n => exact he
    | ta02 c n => unfold Ep.set; simp only; split; exact hset _ _ rfl rfl; exact he
    | tr03 c n => unfold Ep.set; simp only; split; exact hset _ _ rfl rfl; exact he

theorem Opened.tm {e : Ep} (h : Opened e) {N D : Nat} (hd : Timeouts D e) : Tm N D e := by
  obtain ⟨h1, h2, h3⟩ := opened_timers h
  refine ⟨⟨hd.1, fun c hc => (hd.2 c hc).1, fun c hc => (hd.2 c hc).2, by rw [h.new.ta01]; omega, fun c _ => by rw [h1]; omega, fun c _ i => by rw [h2]; omega, ?_, ?_⟩,
    by have := hd.1; omega, by rw [h3]; omega, ?_⟩
  · intro hh; exact absurd h.new.queue hh
  · intro c _ i hi; rw [h.new.tbuf] at hi; cases hi
  · rintro (hh | hh | ⟨c, -, hh⟩)
    · rw [h.new.imm] at hh; cases hh
    · exact absurd h.new.ta01 hh
    · exact absurd (h1 c) hh

/-! ## Acknowledgements which wait -/

theorem retransmit_keeps {c now : Nat} : ∀ n {e : Ep} {b : Bool} {r : Ep × Bool}, retransmit c now n e b = some r →
    (r.1.ackQueue = [] ∨ (r.1.ackQueue = e.ackQueue ∧ r.1.ta01Timer = e.ta01Timer ∧ r.2 = b)) := by
  intro n
  induction n with
  | zero => intro e b r h; cases h
  | succ n ih =>
    intro e b r h
    have hrq : ∀ {e e1 : Ep} {i}, requeue e c i = some e1 → e1.ackQueue = e.ackQueue ∧ e1.ta01Timer = e.ta01Timer := by
      intro e e1 i hr
      unfold requeue at hr
      rcases hd : delTimer (e.tx c) i with _ | ch
      · rw [hd] at hr; cases hr
      · rw [hd] at hr
        simp only [Option.bind_some] at hr
        split at hr
        · cases hr; exact ⟨rfl, rfl⟩
        · generalize addTimer _ i = z at hr
          rcases z with _ | ch2
          · cases hr
          · cases hr; exact ⟨rfl, rfl⟩
    unfold retransmit at h
    simp only at h
    split at h
    · cases h; exact Or.inr ⟨rfl, rfl, rfl⟩
    · split at h
      · split at h
        · split at h
          · generalize hz : requeue _ c _ = z at h
            rcases z with _ | e1
            · cases h
            · have h1 := (hrq hz).1
              rw [buildSend_q] at h1
              rcases ih h with h2 | ⟨h2, -⟩
              · exact Or.inl h2
              · exact Or.inl (h2.trans h1)
          · generalize hz : requeue _ c _ = z at h
            rcases z with _ | e1
            · cases h
            · obtain ⟨h1, h1'⟩ := hrq hz
              rcases ih h with h2 | ⟨h2, h3, h4⟩
              · exact Or.inl h2
              · exact Or.inr ⟨h2.trans h1, h3.trans h1', h4⟩
        · cases h; exact Or.inr ⟨rfl, rfl, rfl⟩
      · cases h

theorem timerChan_keeps {c now : Nat} {e : Ep} {r : Ep × Bool} (h : timerChan e c now = some r) :
    r.1.ackQueue = [] ∨ (r.1.ackQueue = e.ackQueue ∧ r.1.ta01Timer = e.ta01Timer ∧ r.2 = false) := by
  unfold timerChan at h
  rcases hz : retransmit c now 30000 e false with _ | ⟨e1, b⟩
  · rw [hz] at h; cases h
  · rw [hz] at h
    have h1 := retransmit_keeps _ hz
    simp only [Option.bind_some] at h
    split at h
    · split at h
      · next hk =>
        cases h
        left
        show (if _ then buildSend e1 c 0 [] else e1 : Ep).ackQueue = []
        split
        · exact buildSend_q _ _ _ _
        · next hn =>
          rcases h1 with h1 | ⟨-, -, h1⟩
          · exact h1
          · simp only at h1
            subst h1
            rw [Bool.false_or] at hk
            exact absurd hk hn
      · next hk =>
        cases h
        rw [Bool.not_eq_true, Bool.or_eq_false_iff] at hk
        rw [hk.2]
        simp only [Bool.false_eq_true, if_false]
        exact h1.imp id (fun h => ⟨h.1, h.2.1, trivial⟩)
    · cases h; exact h1

/-- When the time has come for the acknowledgements which wait, they are sent. -/
theorem timer_acks {e e' : Ep} {now : Nat} (h1 : e.latest ≤ now) (h2 : e.ta01Timer ≤ now) (hz : e.ta01Timer ≠ 0) (hr : timerExpired e now [] = some e') :
    e'.ackQueue = [] := by
  unfold timerExpired at hr
  rw [if_neg (by omega)] at hr
  unfold timerDue at hr
  generalize hz : (if e.immediate = true then (deliver { e with immediate := false } []).bind fun r => some r.1 else some e) = z at hr
  rcases z with _ | e1
  · cases hr
  · simp only [Option.bind_some] at hr
    have k1 : e1.ta01Timer = e.ta01Timer := by
      split at hz
      · rcases hd : deliver { e with immediate := false } [] with _ | r
        · rw [hd] at hz; cases hz
        · rw [hd] at hz
          cases hz
          exact (deliver_TS hd).t
      · cases hz; rfl
    rcases hq : timerChan e1 1 now with _ | r1
    · rw [hq] at hr; cases hr
    · rw [hq] at hr
      simp only [Option.bind_some] at hr
      rcases hq2 : timerChan r1.1 2 now with _ | r2
      · rw [hq2] at hr; cases hr
      · rw [hq2] at hr
        simp only [Option.bind_some] at hr
        cases hr
        rw [show (updateTimer _).ackQueue = _ from (updateTimer_TS _).q]
        split
        · exact buildSend_q _ _ _ _
        · next hn =>
          have hall : r2.1.ackQueue = [] ∨ (r2.1.ta01Timer = e.ta01Timer ∧ r1.2 = false ∧ r2.2 = false) := by
            rcases timerChan_keeps hq2 with h | ⟨ha, hb, hc⟩
            · exact Or.inl h
            · rcases timerChan_keeps hq with h | ⟨hd, he, hf⟩
              · exact Or.inl (ha.trans h)
              · exact Or.inr ⟨hb.trans (he.trans k1), hf, hc⟩
          rcases hall with h | ⟨ha, hb, hc⟩
          · exact h
          · rw [ha, hb, hc] at hn
            by_contra hne
            apply hn
            have hp := List.length_pos_iff.mpr hne
            have e1 : (e.ta01Timer != 0) = true := by simpa using ‹e.ta01Timer ≠ 0›
            have e2 : decide (e.ta01Timer ≤ now) = true := decide_eq_true h2
            have e3 : decide (r2.1.ackQueue.length > 0) = true := decide_eq_true hp
            rw [e1, e2, e3]; rfl

end Sprt
