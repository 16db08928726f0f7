import Verif.Sprt.Run

/-!
# SPRT: the theorems
-/

namespace Sprt

/-! ## Delivery -/

/-- Whatever is lost, comes twice or comes late, and whenever the timers expire and the applications are busy: on a reliable channel an
application gets the payloads which the other one gave to the channel, each once and in order, without a gap, and with the numbers in
sequence. -/
theorem delivers_in_order {a b : Ep} (ha : Opened a) (hb : Opened b) {evs : List Ev} {s : Sys} (hs : (Sys.start a b).run evs = some s)
    (x : Bool) {c : Nat} (hc : c = 1 ∨ c = 2) :
    payloads (!x) c s.log <+: given x c s.log
      ∧ (got (!x) c s.log).map Prod.fst = (List.range (got (!x) c s.log).length).map (· % 16384) := by
  have h := ((SInv.start ha.new hb.new).run hs).inv.dir x c hc
  have hg := h.got
  have hle := h.rcv.le
  refine ⟨?_, ?_⟩
  · rw [List.prefix_iff_eq_take]
    unfold payloads
    rw [List.length_map]
    apply List.ext_getElem?
    intro i
    rw [List.getElem?_take, List.getElem?_map]
    split
    · next hi =>
      have hi2 : i < (given x c s.log).length := by omega
      rw [hg, List.getElem?_map, List.getElem?_range hi]
      simp [List.getElem?_eq_getElem hi2]
    · next hi =>
      rw [List.getElem?_eq_none (by omega)]
      rfl
  · conv => lhs; rw [hg]
    rw [List.map_map]
    rfl

/-- On the other channels an application gets only what the other one gave to them. -/
theorem nothing_invented {a b : Ep} (ha : Opened a) (hb : Opened b) {evs : List Ev} {s : Sys} (hs : (Sys.start a b).run evs = some s)
    (x : Bool) (c : Nat) : ∀ p ∈ payloads (!x) c s.log, p ∈ given x c s.log := by
  by_cases hc : c = 1 ∨ c = 2
  · exact fun p hp => (delivers_in_order ha hb hs x hc).1.subset hp
  · intro p hp
    obtain ⟨g, hg, rfl⟩ := List.mem_map.mp hp
    have := ((SInv.start ha.new hb.new).run hs).inv.loose (!x) c hc g hg
    rwa [Bool.not_not] at this

/-- What waits is bounded: `sprt_tx` takes no more than two windows of payloads which the other application has not been given. -/
theorem never_far_ahead {a b : Ep} (ha : Opened a) (hb : Opened b) {evs : List Ev} {s : Sys} (hs : (Sys.start a b).run evs = some s)
    (x : Bool) {c : Nat} (hc : c = 1 ∨ c = 2) : (given x c s.log).length ≤ (payloads (!x) c s.log).length + 191 := by
  have := (((SInv.start ha.new hb.new).run hs).inv.dir x c hc).ahead
  unfold payloads
  rw [List.length_map]
  exact this

/-! ## Memory -/

/-- Whatever datagrams and calls come to an endpoint, no access is outside of an array and every loop ends, until the endpoint has
given a payload up and a datagram comes after that. -/
theorem endpoint_is_safe_partial {e : Ep} (he : Opened e) {l : List Call} (hl : e.calls l = none) :
    ∃ pre pkt now app post e', l = pre ++ .packet pkt now app :: post ∧ e.calls pre = some e' ∧ .status 1 ∈ e'.acts := by
  rcases LInv.calls l he.new.linv with ⟨pre, pkt, now, app, post, e', h1, h2, h3, -⟩ | ⟨e', h1, -⟩
  · exact ⟨pre, pkt, now, app, post, e', h1, h2, h3.resolve_left id⟩
  · rw [h1] at hl; cases hl

/-- The datagrams which an endpoint makes fit into its buffer, and so do the payloads it keeps; the applications are given payloads
which are not empty and fit into theirs. -/
theorem endpoint_fits {e e' : Ep} (he : Opened e) {l : List Call} (hl : e.calls l = some e') :
    (∀ pkt, .sent pkt ∈ e'.acts → 6 ≤ pkt.length ∧ pkt.length ≤ 268)
      ∧ (∀ c n p, .delivered c n p ∈ e'.acts → 1 ≤ p.length ∧ p.length ≤ 256)
      ∧ (∀ c, c = 1 ∨ c = 2 → ∀ i p, ((e'.tx c).buf i = some p → i < cap c ∧ p.length ≤ 256)
          ∧ ((e'.rx c).buf i = some p → p.length ≤ 256))
      ∧ e'.ackQueue.length ≤ 3 := by
  rcases LInv.calls l he.new.linv with ⟨pre, pkt, now, app, post, e1, -, -, -, h4⟩ | ⟨e1, h1, h2⟩
  · rw [hl] at h4; cases h4
  · rw [hl] at h1
    cases h1
    refine ⟨h2.sent, h2.del, ?_, h2.queue⟩
    intro c hc i p
    refine ⟨?_, fun h => ((h2.rx c hc).size i p h).2⟩
    intro h
    refine ⟨?_, (h2.tx c hc).size i p h⟩
    obtain ⟨L, O, hs⟩ := (h2.tx c hc).snd
    obtain ⟨a, -, -, h3⟩ := hs.free i p h
    have := (h2.tx c hc).win
    have := Nat.mod_lt a (show 0 < (e'.tx c).window by omega)
    omega

/-- Two endpoints: a history goes on until a datagram comes to an endpoint which gave a payload up. -/
theorem pair_is_safe_partial {a b : Ep} (ha : Opened a) (hb : Opened b) {evs : List Ev} (hs : (Sys.start a b).run evs = none) :
    ∃ pre k now app post s x d, evs = pre ++ .arrive k now app :: post ∧ (Sys.start a b).run pre = some s ∧ s.log[k]? = some (x, d)
      ∧ gaveUp (!x) s.log := by
  rcases (WInv.start ha.new hb.new).run (SInv.start ha.new hb.new) evs with ⟨pre, k, now, app, post, s, x, d, h1, h2, h3, h4, -⟩ | ⟨s, h1, -⟩
  · exact ⟨pre, k, now, app, post, s, x, d, h1, h2, h3, h4⟩
  · rw [h1] at hs; cases hs

/-! ## What is wrong in the code -/

/-- An endpoint with the usual parameters. -/
def plain : Ep := (init 5 97 97 none).getD (default' 0)
where
  default' (n : Nat) : Ep := { rxSub := n, rxType := n, txSub := n, txType := n, tx := fun c => txInit (defaultParms c), rx := fun c => rxInit (defaultParms c), ackQueue := [], ta01Timeout := n, ta01Timer := 0, immediate := false, latest := 0, acts := [] }

theorem plain_opened : Opened plain := ⟨5, 97, 97, none, plain, [], rfl, rfl⟩

/-- An endpoint which sends a payload again once. -/
def once : Ep := plain.set (.maxTries 1 1)

theorem once_opened : Opened once := ⟨5, 97, 97, none, plain, [.maxTries 1 1], rfl, rfl⟩

/-- Two payloads; the timer of the first one expires, and it is given up; the first datagram was only late, and is acknowledged. -/
def late : List Ev :=
  [.tx false 1 [1] 0, .tx false 1 [2] 400000, .timer false 500000 [], .arrive 1 510000 [], .timer true 600000 [], .arrive 7 610000 []]

/-- When an acknowledgement comes for a payload which was given up, while another one waits for its timer, the library writes outside of
its arrays. -/
theorem late_ack_is_unsafe : Opened once ∧ Opened plain ∧ ((Sys.start once plain).run late).isNone = true
    ∧ ((Sys.start once plain).run (late.take 5)).isSome = true :=
  ⟨once_opened, plain_opened, by decide +kernel, by decide +kernel⟩

/-- Whatever parameters `sprt_init` is given, and accepts, the endpoint is as if it had been given none. -/
theorem parameters_are_ignored (sub rxType txType : Nat) (p : Nat → Parms) (e : Ep) (h : init sub rxType txType (some p) = some e) :
    init sub rxType txType none = some e := by
  unfold init at h ⊢
  simp only at h ⊢
  split at h
  · exact h
  · cases h

/-- Parameters are refused if and only if one of them is outside of the limits, and an endpoint which is opened has windows and payloads
within them. -/
theorem parameters_within_limits_partial (sub rxType txType : Nat) (p : Nat → Parms) :
    (init sub rxType txType (some p) = none ↔ ∃ c, c < 4 ∧ ¬ ((limits c).1.1 ≤ (p c).payload ∧ (p c).payload ≤ (limits c).1.2
        ∧ (limits c).2.1 ≤ (p c).window ∧ (p c).window ≤ (limits c).2.2))
      ∧ ∀ e, Opened e → ∀ c, c = 1 ∨ c = 2 → 8 ≤ (e.tx c).window ∧ (e.tx c).window < cap c ∧ 8 ≤ (e.rx c).window ∧ (e.rx c).window < cap c
          ∧ (e.tx c).maxPayload ≤ 256 ∧ (e.rx c).maxPayload ≤ 256 ∧ 1 ≤ (e.tx c).maxTries ∧ (e.tx c).maxTries ≤ 20 := by
  refine ⟨?_, ?_⟩
  · unfold init
    simp only
    split
    · next h =>
      refine ⟨(fun h => by cases h), ?_⟩
      rintro ⟨c, hc, hn⟩
      have := List.all_eq_true.mp h c (List.mem_range.mpr hc)
      exact absurd (of_decide_eq_true this) hn
    · next h =>
      refine ⟨fun _ => ?_, fun _ => rfl⟩
      rw [Bool.not_eq_true, List.all_eq_false] at h
      obtain ⟨c, hc, hn⟩ := h
      refine ⟨c, List.mem_range.mp hc, ?_⟩
      intro hk
      exact hn (decide_eq_true hk)
  · intro e he c hc
    have h := he.new
    exact ⟨(h.tw c hc).1, (h.tw c hc).2, (h.rw c hc).1, (h.rw c hc).2, h.tp c, h.rp c, (h.tries c).1, (h.tries c).2⟩

/-- And it does accept parameters which are not the usual ones. -/
theorem parameters_are_taken : ∃ p : Nat → Parms, (init 5 97 97 (some p)).isSome = true ∧ (p 1).window ≠ (defaultParms 1).window :=
  ⟨fun c => if c = 1 then ⟨256, 96, 90000, 130000, 500000⟩ else defaultParms c, by decide +kernel, by decide⟩

/-! ## Histories which meet the hypotheses -/

/-- Three payloads, of which the first is lost, the third comes before the second and twice, and the first is sent again. -/
def story : List Ev :=
  [.tx false 1 [1] 0, .tx false 1 [2] 10, .tx false 1 [3] 20, .arrive 5 100 [], .arrive 5 110 [], .arrive 3 120 [],
   .timer false 600000 [], .arrive 6 600100 []]

example : ∃ s, (Sys.start plain plain).run story = some s ∧ payloads true 1 s.log = [[1], [2], [3]] ∧ given false 1 s.log = [[1], [2], [3]] := by
  have h : (((Sys.start plain plain).run story).map fun s => (payloads true 1 s.log, given false 1 s.log))
      = some ([[1], [2], [3]], [[1], [2], [3]]) := by decide +kernel
  rcases hs : (Sys.start plain plain).run story with _ | s
  · rw [hs] at h; cases h
  · rw [hs] at h
    simp only [Option.map_some, Option.some.injEq, Prod.mk.injEq] at h
    exact ⟨s, rfl, h.1, h.2⟩

/-- An application which becomes busy, and no longer is. -/
example : (((Sys.start plain plain).run
      [.tx false 2 [1] 0, .tx false 2 [2] 10, .busy true 2 true, .arrive 1 100 [], .arrive 3 110 [], .timer true 200000 [], .busy true 2 false,
        .timer true 300000 []]).map fun s => payloads true 2 s.log) = some [[1], [2]] := by decide +kernel

/-- Datagrams which nobody made. -/
example : ((plain.calls [.packet [] 0 [], .packet [5, 97, 64, 0, 192, 0, 64, 0, 64, 1, 64, 2, 9] 0 [], .packet [5, 97, 255, 255, 0, 0, 1] 0 []]).map
    fun e => e.acts) = some [.delivered 1 0 [9], .delivered 3 16383 [1]] := by decide +kernel

end Sprt
