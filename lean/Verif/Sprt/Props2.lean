import Verif.Sprt.Time
import Verif.Sprt.Busy
import Verif.Sprt.Props

/-!
# SPRT: recovery
-/

namespace Sprt

/-- The two endpoints at their start fit each other from `x`: the sub-session and payload types are seven bits, the receiver expects the
type which is sent, and it takes payloads of the size which may be sent on channel `c`. -/
structure Fits (a b : Ep) (x : Bool) (c : Nat) : Prop where
  sub : ((Sys.start a b).ep x).txSub < 128
  type : ((Sys.start a b).ep x).txType < 128
  same : ((Sys.start a b).ep x).txType = ((Sys.start a b).ep !x).rxType
  size : (((Sys.start a b).ep x).tx c).maxPayload ≤ (((Sys.start a b).ep !x).rx c).maxPayload

/-- Whatever was lost before, in any history: let the last call have been at `N`, the longest timeout be `D`, no payload be given up by the
sender and the receiving application not be busy. Then at any time from `N + D` on it is enough that the timers expire once at both ends, and
that some of the datagrams which are sent then arrive, for the application to have all that was given to the channel, in order. The
exception is that the receiver gives up a payload of its own then. -/
theorem loss_is_made_good {a b : Ep} (ha : Opened a) (hb : Opened b) {N D : Nat} (hta : Timeouts D a) (htb : Timeouts D b) (hN : N + D < 2 ^ 64 - 1)
    {evs : List Ev} (hev : ∀ ev ∈ evs, ev.time ≤ N) {s : Sys} (hs : (Sys.start a b).run evs = some s)
    (x : Bool) {c : Nat} (hc : c = 1 ∨ c = 2) (hf : Fits a b x c) (hup : ¬ gaveUp x s.log) (hbusy : ((s.ep !x).rx c).busy = false)
    (now : Nat) (hnow : N + D ≤ now) :
    ∃ s1 : Sys, s.run [.timer (!x) now [], .timer x now []] = some s1 ∧ (gaveUp (!x) s1.log ∨
      ∃ (ks : List Nat) (s2 : Sys), (∀ k ∈ ks, s.log.length ≤ k) ∧ s1.run (ks.map fun k => .arrive k now []) = some s2
        ∧ given x c s2.log = given x c s.log ∧ payloads (!x) c s2.log = given x c s.log) := by
  have htm := Tm.run' (by have := hta.1; omega) hN evs (s := Sys.start a b) (by intro y; cases y; exact ha.tm hta; exact hb.tm htb) hev hs
  obtain ⟨s1, h1, h2⟩ := (AInv.run evs (AInv.start ha hb) hs).recover x hc ⟨hf.sub, hf.type, hf.same, hf.size⟩ hup hbusy (now := now)
    (Nat.le_trans (htm _).lat hnow) (Nat.le_trans (htm _).lat hnow) (fun d hd i _ => Nat.le_trans ((htm x).tim.t3 d hd i) hnow)
  refine ⟨s1, h1, h2.imp id ?_⟩
  rintro ⟨ks, s2, k1, k2, k3, k4⟩
  refine ⟨ks, s2, k1, k2, k3, ?_⟩
  have hrun : (Sys.start a b).run (evs ++ ([.timer (!x) now [], .timer x now []] ++ ks.map fun k => .arrive k now [])) = some s2 := by
    have happ : ∀ (l m : List Ev) (s : Sys), s.run (l ++ m) = (s.run l).bind fun s => s.run m := by
      intro l
      induction l with
      | nil => intro m s; rfl
      | cons ev l ih =>
        intro m s
        simp only [List.cons_append, Sys.run]
        cases s.step ev with
        | none => rfl
        | some s' => exact ih m s'
    rw [happ, hs, Option.bind_some, happ, h1, Option.bind_some, k2]
  have hpre := (delivers_in_order ha hb hrun x hc).1
  rw [← k3]
  refine hpre.eq_of_length ?_
  unfold payloads
  rw [List.length_map]; exact k4

/-- As long as something which was given to a reliable channel is missing and the receiving application is not busy, one of
the two ends has asked for a timer, at a time no later than `D` after the last call. So nothing waits for ever. (`latest` is what the callback
of the timer was given last, with 0 for no timer.) -/
theorem never_stalls {a b : Ep} (ha : Opened a) (hb : Opened b) {N D : Nat} (hta : Timeouts D a) (htb : Timeouts D b) (hN : N + D < 2 ^ 64 - 1)
    {evs : List Ev} (hev : ∀ ev ∈ evs, ev.time ≤ N) {s : Sys} (hs : (Sys.start a b).run evs = some s)
    (x : Bool) {c : Nat} (hc : c = 1 ∨ c = 2) (hbusy : ((s.ep !x).rx c).busy = false)
    (hmiss : (payloads (!x) c s.log).length < (given x c s.log).length) :
    ∃ y, 0 < (s.ep y).latest ∧ (s.ep y).latest ≤ N + D := by
  have htm := Tm.run' (by have := hta.1; omega) hN evs (s := Sys.start a b) (by intro y; cases y; exact ha.tm hta; exact hb.tm htb) hev hs
  have h := AInv.run evs (AInv.start ha hb) hs
  have hlen : (got (!x) c s.log).length < (given x c s.log).length := by
    unfold payloads at hmiss
    rwa [List.length_map] at hmiss
  by_cases him : (s.ep !x).immediate = true
  · exact ⟨!x, Nat.pos_of_ne_zero ((htm (!x)).run (Or.inl him)), (htm _).lat⟩
  · have hdir := h.i.inv.dir x c hc
    obtain ⟨O, hsn, hrec⟩ := hdir.snd
    have hfree := h.k.idle (!x) (by simpa using him) c hc hbusy
    rw [hdir.rcv.inp] at hfree
    rcases hz : ((s.ep x).tx c).buf ((got (!x) c s.log).length % ((s.ep x).tx c).window) with _ | p
    · rcases hrec _ hlen (Or.inr hz) with h1 | ⟨-, h1⟩
      · omega
      · rw [hfree] at h1; cases h1
    · exact ⟨x, Nat.pos_of_ne_zero ((htm x).run (Or.inr (Or.inr ⟨c, hc, (htm x).tim.z2 c hc _ (by rw [hz]; rfl)⟩))), (htm _).lat⟩

/-- And as long as an acknowledgement waits to be sent, the endpoint has asked for a timer, at a time no later than `D` after the last call. -/
theorem acknowledgements_are_sent {a b : Ep} (ha : Opened a) (hb : Opened b) {N D : Nat} (hta : Timeouts D a) (htb : Timeouts D b) (hN : N + D < 2 ^ 64 - 1)
    {evs : List Ev} (hev : ∀ ev ∈ evs, ev.time ≤ N) {s : Sys} (hs : (Sys.start a b).run evs = some s) (y : Bool) (hq : (s.ep y).ackQueue ≠ []) :
    (0 < (s.ep y).latest ∧ (s.ep y).latest ≤ N + D) ∧ ∀ now e', (s.ep y).latest ≤ now → (s.ep y).ta01Timer ≤ now →
      timerExpired (s.ep y) now [] = some e' → e'.ackQueue = [] := by
  have htm := Tm.run' (by have := hta.1; omega) hN evs (s := Sys.start a b) (by intro y; cases y; exact ha.tm hta; exact hb.tm htb) hev hs
  have hz := (htm y).tim.z1 hq
  refine ⟨⟨Nat.pos_of_ne_zero ((htm y).run (Or.inr (Or.inl hz))), (htm y).lat⟩, ?_⟩
  intro now e' h1 h2 ht
  exact timer_acks h1 h2 hz ht

/-- A busy application is left alone, whatever arrives: in one call a reliable channel gives nothing to an application which said before the
call that the channel is busy, and nothing more after it said so in one of its callbacks in this call. After the call the endpoint holds the
channels to be busy which the application said last to be. -/
theorem busy_is_respected {e e' : Ep} {k : Call} (h : e.call k = some e') : ∃ new, e'.acts = e.acts ++ new ∧
    match k with
    | .tx _ _ _ => ∃ app', walk (fun c => (e.rx c).busy) [] new = some (fun c => (e'.rx c).busy, app')
    | .packet _ _ app => ∃ app', walk (fun c => (e.rx c).busy) app new = some (fun c => (e'.rx c).busy, app')
    | .timer _ app => ∃ app', walk (fun c => (e.rx c).busy) app new = some (fun c => (e'.rx c).busy, app')
    | .busy c b => new = [] ∧ ∀ d, (e'.rx d).busy = if (c = 1 ∨ c = 2) ∧ d = c then b else (e.rx d).busy := by
  cases k with
  | tx c p now =>
    rcases hq : Sprt.tx e c p now with _ | r
    · rw [Ep.call, hq] at h; cases h
    · rw [Ep.call, hq] at h
      cases h
      obtain ⟨new, h1, h2⟩ := (tx_frm hq).2.minds []
      exact ⟨new, h1, _, h2⟩
  | packet pkt now app =>
    rcases hq : rxPacket e pkt now app with _ | r
    · rw [Ep.call, hq] at h; cases h
    · rw [Ep.call, hq] at h
      cases h
      obtain ⟨app', new, h1, h2⟩ := Minds.rxPacket hq
      exact ⟨new, h1, _, h2⟩
  | timer now app =>
    obtain ⟨app', new, h1, h2⟩ := Minds.timerExpired h
    exact ⟨new, h1, _, h2⟩
  | busy c b =>
    cases h
    exact ⟨[], by rw [setBusy_acts]; simp, rfl, setBusy_busy e c b⟩

/-- Once an application has said that a reliable channel is busy it gets nothing from this channel until it says that it is not. -/
theorem nothing_while_busy {c : Nat} (hc : c = 1 ∨ c = 2) : ∀ (l : List Call) {e e' : Ep}, (e.rx c).busy = true → .busy c false ∉ l →
    e.calls l = some e' → (e'.rx c).busy = true ∧ ∃ new, e'.acts = e.acts ++ new ∧ ∀ n p, .delivered c n p ∉ new
  | [], e, e', hb, _, h => by cases h; exact ⟨hb, [], by simp, by simp⟩
  | k :: l, e, e', hb, hn, h => by
    rcases hq : e.call k with _ | e1
    · rw [Ep.calls, hq] at h; cases h
    · rw [Ep.calls, hq] at h
      have h1 : (e1.rx c).busy = true ∧ ∃ new, e1.acts = e.acts ++ new ∧ ∀ n p, .delivered c n p ∉ new := by
        obtain ⟨new, h1, h2⟩ := busy_is_respected hq
        cases k with
        | tx _ _ _ =>
          obtain ⟨app', h2⟩ := h2
          have := walk_busy hc new (by exact hb) h2
          exact ⟨this.1, new, h1, this.2⟩
        | packet _ _ _ =>
          obtain ⟨app', h2⟩ := h2
          have := walk_busy hc new (by exact hb) h2
          exact ⟨this.1, new, h1, this.2⟩
        | timer _ _ =>
          obtain ⟨app', h2⟩ := h2
          have := walk_busy hc new (by exact hb) h2
          exact ⟨this.1, new, h1, this.2⟩
        | busy d b =>
          obtain ⟨rfl, h2⟩ := h2
          refine ⟨?_, [], h1, by simp⟩
          rw [h2]
          split
          · next hd =>
            obtain ⟨-, rfl⟩ := hd
            cases b
            · exact absurd List.mem_cons_self hn
            · rfl
          · exact hb
      obtain ⟨h2, new, h3, h4⟩ := h1
      obtain ⟨h5, new', h6, h7⟩ := nothing_while_busy hc l h2 (fun hm => hn (List.mem_cons_of_mem _ hm)) h
      exact ⟨h5, new ++ new', by rw [h6, h3, List.append_assoc], fun n p hm => (List.mem_append.mp hm).elim (h4 n p) (h7 n p)⟩

/-! ## A history which meets the hypotheses -/

/-- Nine payloads: the first two are lost, the third arrives, and the rest is lost. -/
def losses : List Ev :=
  (List.range 9).map (fun i => Ev.tx false 1 [i, 7] (10 * i)) ++ [.arrive 5 100 []]

example : Fits plain plain false 1 := by constructor <;> decide +kernel

example : Timeouts 500000 plain := by
  refine ⟨by decide +kernel, ?_⟩
  rintro c (rfl | rfl) <;> decide +kernel

example : ∀ ev ∈ losses, ev.time ≤ 100 := by decide

example : (((Sys.start plain plain).run losses).map fun s =>
    (decide (gaveUp false s.log), ((s.ep true).rx 1).busy, (s.ep true).ackQueue.length, (given false 1 s.log).length, payloads true 1 s.log)) = some (false, false, 1, 9, []) := by decide +kernel

example : (((Sys.start plain plain).run (losses ++ [.timer true 500100 [], .timer false 500100 []] ++ (List.range 40).map fun k => .arrive (18 + k) 500100 [])).map fun s =>
    decide (payloads true 1 s.log = given false 1 s.log ∧ (given false 1 s.log).length = 9)) = some true := by decide +kernel

/-- The application takes two payloads, and says in its callback for the second that it is busy. It gets the third and the fourth after it
has said that it is not, when the timer expires. -/
example : ((plain.calls [.packet [0, 97, 64, 1, 0, 0, 8] 1 [], .packet [0, 97, 64, 2, 0, 0, 9] 1 [], .packet [0, 97, 64, 0, 0, 0, 7] 2 [false, true],
      .packet [0, 97, 64, 3, 0, 0, 10] 3 []]).map fun e =>
    ((e.rx 1).busy, e.acts.filterMap fun a => match a with | .delivered _ n _ => some n | _ => none)) = some (true, [0, 1]) := by decide +kernel

example : ((plain.calls [.packet [0, 97, 64, 1, 0, 0, 8] 1 [], .packet [0, 97, 64, 2, 0, 0, 9] 1 [], .packet [0, 97, 64, 0, 0, 0, 7] 2 [false, true],
      .packet [0, 97, 64, 3, 0, 0, 10] 3 [], .busy 1 false, .timer 4 []]).map fun e =>
    ((e.rx 1).busy, e.acts.filterMap fun a => match a with | .delivered _ n _ => some n | _ => none)) = some (false, [0, 1, 2, 3]) := by decide +kernel

/-- The sender may give up at that very time: what it sent then arrives all the same. -/
example : (((Sys.start once plain).run [.tx false 1 [1] 0, .timer true 1000000 [], .timer false 1000000 [], .arrive 2 1000000 []]).map fun s =>
    decide (gaveUp false s.log ∧ payloads true 1 s.log = [[1]])) = some true := by decide +kernel

end Sprt
