import Verif.T38.Model

/-! # Lemmas about the T.38 packets -/

namespace T38

@[simp] theorem bind_ok {ε α β : Type} (a : α) (f : α → Except ε β) : (Except.ok a : Except ε α).bind f = f a := rfl
@[simp] theorem bind_error {ε α β : Type} (e : ε) (f : α → Except ε β) : (Except.error e : Except ε α).bind f = .error e := rfl
@[simp] theorem map_ok {ε α β : Type} (a : α) (f : α → β) : (Except.ok a : Except ε α).map f = .ok (f a) := rfl
@[simp] theorem map_error {ε α β : Type} (e : ε) (f : α → β) : (Except.error e : Except ε α).map f = .error e := rfl

/-! ## No read outside of the data -/

/-- The call reads nothing outside of the data, and when it ends early it returns nothing positive. -/
def Safe {α : Type} (x : Except Stop α) : Prop := ∀ e, x = .error e → ∃ r : Int, r ≤ 0 ∧ e = .ret r

theorem Safe.ok {α : Type} (a : α) : Safe (.ok a : Except Stop α) := fun _ h => by cases h

theorem Safe.bind {α β : Type} {x : Except Stop α} {f : α → Except Stop β} (h : Safe x) (hf : ∀ a, x = .ok a → Safe (f a)) : Safe (x.bind f) := by
  cases x with
  | error e => exact fun e2 h2 => h e2 (by simpa using h2)
  | ok a => exact hf a rfl

theorem Safe.map {α β : Type} {x : Except Stop α} {f : α → β} (h : Safe x) : Safe (x.map f) := by
  cases x with
  | error e => exact fun e2 h2 => h e2 (by simpa using h2)
  | ok a => exact Safe.ok _

theorem Safe.stopIf (c : Prop) [Decidable c] {r : Int} (hr : r ≤ 0) : Safe (stopIf c r) := by
  unfold T38.stopIf
  split
  · intro e h; exact ⟨r, hr, by simpa using h.symm⟩
  · exact Safe.ok _

theorem stopIf_ok {c : Prop} [Decidable c] {r : Int} {u : Unit} (h : stopIf c r = .ok u) : ¬c := by
  intro hc
  unfold stopIf at h
  rw [if_pos hc] at h
  cases h

@[simp] theorem stopIf_neg {c : Prop} [Decidable c] {r : Int} (h : ¬c) : stopIf c r = .ok () := if_neg h
@[simp] theorem stopIf_pos {c : Prop} [Decidable c] {r : Int} (h : c) : stopIf c r = .error (.ret r) := if_pos h

theorem Safe.octet {buf : List Byte} {i : Nat} (h : i < buf.length) : Safe (octet buf i) := by
  unfold T38.octet
  rw [List.getElem?_eq_getElem h]
  exact Safe.ok _

theorem Safe.word {buf : List Byte} {i : Nat} (h : i + 2 ≤ buf.length) : Safe (word buf i) := by
  unfold T38.word
  exact (Safe.octet (by omega)).bind fun _ _ => (Safe.octet (by omega)).map

theorem frame_safe (s : Core) (buf : List Byte) : Safe (frame s buf) := by
  unfold frame
  split
  · exact Safe.ok _
  · split
    · refine (Safe.octet (by omega)).bind fun _ _ => (Safe.stopIf _ (by omega)).bind fun _ _ => (Safe.octet (by omega)).bind fun _ _ => (Safe.stopIf _ (by omega)).bind fun _ _ =>
        (Safe.word (by omega)).bind fun _ _ => (Safe.stopIf _ (by omega)).bind fun _ _ => Safe.ok _
    · exact Safe.ok _
  · exact Safe.ok _

/-- Inversion of `bind`. -/
theorem bind_eq_ok {α β : Type} {x : Except Stop α} {f : α → Except Stop β} {b : β} (h : x.bind f = .ok b) : ∃ a, x = .ok a ∧ f a = .ok b := by
  cases x with
  | error e => cases h
  | ok a => exact ⟨a, rfl, h⟩

theorem map_eq_ok {α β : Type} {x : Except Stop α} {f : α → β} {b : β} (h : x.map f = .ok b) : ∃ a, x = .ok a ∧ f a = b := by
  cases x with
  | error e => cases h
  | ok a => exact ⟨a, rfl, Except.ok.inj h⟩

theorem frame_le {s : Core} {buf : List Byte} {h : Nat × Nat × Int} (e : frame s buf = .ok h) : h.2.1 ≤ buf.length ∧ h.2.2 ≤ 0 := by
  unfold frame at e
  split at e
  · rw [← Except.ok.inj e]; exact ⟨Nat.le_refl _, by simp⟩
  · split at e
    · obtain ⟨_, _, e⟩ := bind_eq_ok e
      obtain ⟨_, _, e⟩ := bind_eq_ok e
      obtain ⟨_, _, e⟩ := bind_eq_ok e
      obtain ⟨_, _, e⟩ := bind_eq_ok e
      obtain ⟨n, _, e⟩ := bind_eq_ok e
      obtain ⟨_, h1, e⟩ := bind_eq_ok e
      have := stopIf_ok h1
      rw [← Except.ok.inj e]
      exact ⟨by simp only; omega, by simp⟩
    · rw [← Except.ok.inj e]; exact ⟨Nat.le_refl _, by simp⟩
  · rw [← Except.ok.inj e]; exact ⟨Nat.le_refl _, by simp⟩

theorem indicatorType_safe {buf : List Byte} {ptr pktLen : Nat} {ret : Int} (hret : ret ≤ 0) (b : Nat) (h : pktLen ≤ buf.length) : Safe (rxIndicatorType buf ptr pktLen ret b) := by
  unfold rxIndicatorType
  split
  · refine (Safe.stopIf _ (by omega)).bind fun _ e => ?_
    have := stopIf_ok e
    exact (Safe.octet (by omega)).bind fun _ _ => (Safe.stopIf _ (by omega)).bind fun _ _ => Safe.ok _
  · exact Safe.ok _

theorem indicatorType_le {buf : List Byte} {ptr pktLen : Nat} {ret : Int} {b : Nat} {q : Nat × Nat} (hp : ptr < pktLen) (e : rxIndicatorType buf ptr pktLen ret b = .ok q) :
    ptr < q.1 ∧ q.1 ≤ pktLen := by
  unfold rxIndicatorType at e
  split at e
  · obtain ⟨_, h1, e⟩ := bind_eq_ok e
    obtain ⟨_, _, e⟩ := bind_eq_ok e
    obtain ⟨_, _, e⟩ := bind_eq_ok e
    have := stopIf_ok h1
    rw [← Except.ok.inj e]; simp only; omega
  · rw [← Except.ok.inj e]; simp only; omega

theorem dataType_safe {buf : List Byte} {ptr pktLen : Nat} {ret : Int} (hret : ret ≤ 0) (b : Nat) (h : pktLen ≤ buf.length) : Safe (rxDataType buf ptr pktLen ret b) := by
  unfold rxDataType
  split
  · refine (Safe.stopIf _ (by omega)).bind fun _ e => ?_
    have := stopIf_ok e
    exact (Safe.octet (by omega)).bind fun _ _ => (Safe.stopIf _ (by omega)).bind fun _ _ => Safe.ok _
  · exact (Safe.stopIf _ (by omega)).bind fun _ _ => Safe.ok _

theorem dataType_le {buf : List Byte} {ptr pktLen : Nat} {ret : Int} {b : Nat} {q : Nat × Nat} (hp : ptr < pktLen) (e : rxDataType buf ptr pktLen ret b = .ok q) :
    ptr < q.1 ∧ q.1 ≤ pktLen := by
  unfold rxDataType at e
  split at e
  · obtain ⟨_, h1, e⟩ := bind_eq_ok e
    obtain ⟨_, _, e⟩ := bind_eq_ok e
    obtain ⟨_, _, e⟩ := bind_eq_ok e
    have := stopIf_ok h1
    rw [← Except.ok.inj e]; simp only; omega
  · obtain ⟨_, _, e⟩ := bind_eq_ok e
    rw [← Except.ok.inj e]; simp only; omega

theorem checkHead_safe {version : Nat} {buf : List Byte} {pktLen ptr : Nat} {ret : Int} {half : Bool} {b : Nat} (hret : ret ≤ 0) (h : pktLen ≤ buf.length) : Safe (checkHead version buf pktLen ret ptr half b) := by
  unfold checkHead
  split
  · split
    · exact (Safe.stopIf _ (by omega)).bind fun _ _ => Safe.ok _
    · refine (Safe.stopIf _ (by omega)).bind fun _ _ => ?_
      split <;> exact Safe.ok _
  · split
    · refine (Safe.stopIf _ (by omega)).bind fun _ e => ?_
      have := stopIf_ok e
      exact (Safe.octet (by omega)).bind fun _ _ => (Safe.stopIf _ (by omega)).bind fun _ _ => Safe.ok _
    · exact Safe.ok _

theorem checkField_safe {version : Nat} {buf : List Byte} {pktLen ptr : Nat} {ret : Int} {half : Bool} (hret : ret ≤ 0) (h : pktLen ≤ buf.length) : Safe (checkField version buf pktLen ret ptr half) := by
  unfold checkField
  refine (Safe.stopIf _ (by omega)).bind fun _ e => ?_
  have := stopIf_ok e
  refine (Safe.octet (by omega)).bind fun _ _ => (checkHead_safe hret h).bind fun q _ => Safe.bind ?_ fun p _ => (Safe.stopIf _ (by omega)).bind fun _ _ => Safe.ok _
  split
  · refine (Safe.stopIf _ (by omega)).bind fun _ e => ?_
    have := stopIf_ok e
    exact (Safe.word (by omega)).map
  · exact Safe.ok _

theorem checkFields_safe {version : Nat} {buf : List Byte} {pktLen : Nat} {ret : Int} (hret : ret ≤ 0) (h : pktLen ≤ buf.length) : ∀ n ptr half, Safe (checkFields version buf pktLen ret n ptr half) := by
  intro n
  induction n with
  | zero => intro ptr half; exact Safe.ok _
  | succ n ih => intro ptr half; exact (checkField_safe hret h).bind fun _ _ => ih _ _

/-- The second pass sees what the first has seen. -/
theorem takeHead_of {version : Nat} {buf : List Byte} {pktLen ptr : Nat} {ret : Int} {half : Bool} {b : Nat} {q : Bool × Nat × Bool}
    (e : checkHead version buf pktLen ret ptr half b = .ok q) : ∃ t, takeHead version buf ptr half b = .ok (q.1, t, q.2) := by
  unfold checkHead at e
  unfold takeHead
  split at e
  · rename_i hv
    rw [if_pos hv]
    split at e
    · rename_i hh
      obtain ⟨_, _, e⟩ := bind_eq_ok e
      rw [if_pos hh, ← Except.ok.inj e]; exact ⟨_, rfl⟩
    · rename_i hh
      obtain ⟨_, _, e⟩ := bind_eq_ok e
      rw [if_neg hh]
      split at e
      · rename_i h7
        rw [if_pos h7, ← Except.ok.inj e]; exact ⟨_, rfl⟩
      · rename_i h7
        rw [if_neg h7, ← Except.ok.inj e]; exact ⟨_, rfl⟩
  · rename_i hv
    rw [if_neg hv]
    split at e
    · rename_i hx
      obtain ⟨_, _, e⟩ := bind_eq_ok e
      obtain ⟨c, hc, e⟩ := bind_eq_ok e
      obtain ⟨_, _, e⟩ := bind_eq_ok e
      rw [if_pos hx, hc, ← Except.ok.inj e]; exact ⟨_, rfl⟩
    · rename_i hx
      rw [if_neg hx, ← Except.ok.inj e]; exact ⟨_, rfl⟩

theorem takeField_of {version : Nat} {buf : List Byte} {pktLen ptr : Nat} {ret : Int} {half : Bool} {q : Nat × Bool} (h : pktLen ≤ buf.length)
    (e : checkField version buf pktLen ret ptr half = .ok q) : q.1 ≤ pktLen ∧ ∃ f, takeField version buf ptr half = .ok (q.1, q.2, f) := by
  unfold checkField at e
  obtain ⟨_, _, e⟩ := bind_eq_ok e
  obtain ⟨b, hb, e⟩ := bind_eq_ok e
  obtain ⟨hd, hh, e⟩ := bind_eq_ok e
  obtain ⟨p, hp, e⟩ := bind_eq_ok e
  obtain ⟨_, h1, e⟩ := bind_eq_ok e
  have hle := stopIf_ok h1
  obtain rfl := (Except.ok.inj e).symm
  refine ⟨by simp only; omega, ?_⟩
  obtain ⟨t, ht⟩ := takeHead_of hh
  unfold takeField
  rw [hb, bind_ok, ht, bind_ok]
  split at hp
  · rename_i hpr
    obtain ⟨_, _, hp⟩ := bind_eq_ok hp
    obtain ⟨n, hn, hp⟩ := map_eq_ok hp
    simp only
    rw [if_pos hpr, hn, bind_ok]
    unfold slice
    rw [if_pos (by omega), map_ok, hp]
    exact ⟨_, rfl⟩
  · rename_i hpr
    simp only
    rw [if_neg hpr, Except.ok.inj hp]
    exact ⟨_, rfl⟩

theorem takeFields_of {version : Nat} {buf : List Byte} {pktLen : Nat} {ret : Int} (h : pktLen ≤ buf.length) : ∀ n ptr half q, checkFields version buf pktLen ret n ptr half = .ok q →
    ∃ fs, takeFields version buf n ptr half = .ok (q.1, q.2, fs) ∧ fs.length = n := by
  intro n
  induction n with
  | zero => intro ptr half q e; rw [← Except.ok.inj e]; exact ⟨[], rfl, rfl⟩
  | succ n ih =>
    intro ptr half q e
    obtain ⟨a, h1, e⟩ := bind_eq_ok e
    obtain ⟨_, f, hf⟩ := takeField_of h h1
    obtain ⟨fs, hfs, hl⟩ := ih _ _ _ e
    refine ⟨f :: fs, ?_, by simp [hl]⟩
    rw [takeFields, hf, bind_ok, hfs]; rfl

theorem rxFields_safe {version : Nat} {buf : List Byte} {ptr pktLen : Nat} {ret : Int} (hret : ret ≤ 0) (h : pktLen ≤ buf.length) : Safe (rxFields version buf ptr pktLen ret) := by
  unfold rxFields
  refine (Safe.stopIf _ (by omega)).bind fun _ e => ?_
  have := stopIf_ok e
  refine (Safe.octet (by omega)).bind fun n _ => (checkFields_safe hret h _ _ _).bind fun q hq => (Safe.stopIf _ (by omega)).bind fun _ _ => ?_
  obtain ⟨fs, hf, _⟩ := takeFields_of h _ _ _ _ hq
  rw [hf]; exact Safe.ok _

theorem checkFields_ge {version : Nat} {buf : List Byte} {pktLen : Nat} {ret : Int} : ∀ n ptr half q, checkFields version buf pktLen ret n ptr half = .ok q → ptr ≤ q.1 := by
  intro n
  induction n with
  | zero => intro ptr half q e; rw [← Except.ok.inj e]; exact Nat.le_refl _
  | succ n ih =>
    intro ptr half q e
    obtain ⟨a, h1, e⟩ := bind_eq_ok e
    have h2 := ih _ _ _ e
    refine Nat.le_trans ?_ h2
    unfold checkField at h1
    obtain ⟨_, _, h1⟩ := bind_eq_ok h1
    obtain ⟨b, hb, h1⟩ := bind_eq_ok h1
    obtain ⟨hd, hh, h1⟩ := bind_eq_ok h1
    obtain ⟨p, hp, h1⟩ := bind_eq_ok h1
    obtain ⟨_, _, h1⟩ := bind_eq_ok h1
    obtain rfl := (Except.ok.inj h1).symm
    have hge : ptr ≤ hd.2.1 := by
      unfold checkHead at hh
      split at hh
      · split at hh
        · obtain ⟨_, _, hh⟩ := bind_eq_ok hh
          rw [← Except.ok.inj hh]; simp
        · obtain ⟨_, _, hh⟩ := bind_eq_ok hh
          split at hh <;> rw [← Except.ok.inj hh] <;> simp
      · split at hh
        · obtain ⟨_, _, hh⟩ := bind_eq_ok hh
          obtain ⟨_, _, hh⟩ := bind_eq_ok hh
          obtain ⟨_, _, hh⟩ := bind_eq_ok hh
          rw [← Except.ok.inj hh]; simp
        · rw [← Except.ok.inj hh]; simp
    show ptr ≤ p
    split at hp
    · obtain ⟨_, _, hp⟩ := bind_eq_ok hp
      obtain ⟨n, _, hp⟩ := map_eq_ok hp
      omega
    · rw [← Except.ok.inj hp]; exact hge

theorem rxFields_le {version : Nat} {buf : List Byte} {ptr pktLen : Nat} {ret : Int} (h : pktLen ≤ buf.length) {q : Nat × List Field} (e : rxFields version buf ptr pktLen ret = .ok q) :
    ptr < q.1 ∧ q.1 ≤ pktLen := by
  unfold rxFields at e
  obtain ⟨_, _, e⟩ := bind_eq_ok e
  obtain ⟨n, _, e⟩ := bind_eq_ok e
  obtain ⟨r, hr, e⟩ := bind_eq_ok e
  obtain ⟨_, h1, e⟩ := bind_eq_ok e
  have hle := stopIf_ok h1
  obtain ⟨fs, hf, _⟩ := takeFields_of h _ _ _ _ hr
  have hge := checkFields_ge _ _ _ _ hr
  rw [hf, map_ok] at e
  rw [← Except.ok.inj e]
  cases hr2 : r.2 <;> simp [hr2] at hle ⊢ <;> omega

theorem rxData_safe {version : Nat} {buf : List Byte} {ptr pktLen : Nat} {ret : Int} {b : Nat} (hret : ret ≤ 0) (h : pktLen ≤ buf.length) : Safe (rxData version buf ptr pktLen ret b) := by
  unfold rxData
  refine (dataType_safe hret _ h).bind fun t _ => ?_
  split
  · exact (rxFields_safe hret h).map
  · exact Safe.ok _

theorem rxData_le {version : Nat} {buf : List Byte} {ptr pktLen : Nat} {ret : Int} {b : Nat} (h : pktLen ≤ buf.length) (hp : ptr < pktLen) {q : Nat × Nat × List Field}
    (e : rxData version buf ptr pktLen ret b = .ok q) : ptr < q.1 ∧ q.1 ≤ pktLen := by
  unfold rxData at e
  obtain ⟨t, ht, e⟩ := bind_eq_ok e
  have h1 := dataType_le hp ht
  split at e
  · obtain ⟨r, hr, e⟩ := map_eq_ok e
    have := rxFields_le h hr
    rw [← e]; simp only; omega
  · rw [← Except.ok.inj e]; exact h1

end T38
