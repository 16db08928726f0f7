import Verif.Adsi.Arrive

/-!
# Fields
-/

set_option linter.unusedSimpArgs false

namespace Adsi

/-! ## Steps -/

theorem nextField_end {std : Std} {msg : List Byte} {pos : Nat} (h : msg.length < pos) : nextField std msg pos = some .done := by
  cases std <;> simp only [nextField, nextSum, nextJclip, nextDtmf]
  all_goals first | rw [if_pos (by omega)]

theorem undouble_some {msg : List Byte} {pos : Nat} {r : Byte × Nat} (h : undouble msg pos = some r) :
    msg[pos]? = some r.1 ∧ pos < msg.length ∧ pos + 1 ≤ r.2 ∧ r.2 ≤ pos + 2 := by
  unfold undouble at h
  cases hm : msg[pos]? with
  | none => rw [hm] at h; cases h
  | some o =>
    rw [hm] at h
    simp only [Option.bind_some, Option.some.injEq] at h
    subst h
    refine ⟨rfl, ?_, ?_, ?_⟩
    · exact (List.getElem?_eq_some_iff.mp hm).1
    all_goals simp only; split <;> omega

theorem takeWhile_ge {p : Byte → Bool} {l : List Byte} {a : Byte} (h : l[0]? = some a) (ha : p a = true) : 1 ≤ (l.takeWhile p).length := by
  cases l with
  | nil => cases h
  | cons x l =>
    simp only [List.getElem?_cons_zero, Option.some.injEq] at h
    subst h
    rw [List.takeWhile_cons, if_pos ha]
    simp

theorem nextField_moves {std : Std} {msg : List Byte} {pos p : Nat} {ty : Byte} {body : List Byte} (h : nextField std msg pos = some (.field p ty body)) :
    pos < p ∧ body <:+: msg := by
  have hin : ∀ n k, (msg.drop n).take k <:+: msg := fun n k => ((List.take_prefix _ _).isInfix).trans (List.drop_suffix _ _).isInfix
  have hnil : ([] : List Byte) <:+: msg := ⟨[], msg, rfl⟩
  have hsum : nextSum msg pos = some (.field p ty body) → pos < p ∧ body <:+: msg := by
    intro h
    unfold nextSum at h
    split at h
    · cases h
    · split at h
      · cases h0 : msg[0]? with
        | none => rw [h0] at h; cases h
        | some x =>
          rw [h0] at h
          simp only [Option.bind_some] at h
          split at h
          · cases h
          · cases h; exact ⟨by omega, hnil⟩
      · cases h0 : msg[0]? with
        | none => rw [h0] at h; cases h
        | some x =>
          rw [h0] at h
          simp only [Option.bind_some] at h
          split at h
          · cases h1 : msg[pos]? with
            | none => rw [h1] at h; cases h
            | some y =>
              cases h2 : msg[pos + 1]? with
              | none => rw [h1, h2] at h; cases h
              | some z =>
                rw [h1, h2] at h
                simp only [Option.bind_some] at h
                split at h
                · cases h
                · cases h; exact ⟨by omega, hin _ _⟩
          · cases h; exact ⟨by omega, (List.drop_suffix _ _).isInfix⟩
  cases std
  case jclip =>
    simp only [nextField, nextJclip] at h
    split at h
    · cases h
    · split at h
      · cases h1 : undouble msg 5 with
        | none => rw [h1] at h; cases h
        | some t =>
          rw [h1] at h
          simp only [Option.bind_some] at h
          cases h2 : undouble msg t.2 with
          | none => rw [h2] at h; cases h
          | some n =>
            rw [h2] at h
            simp only [Option.bind_some] at h
            split at h
            · cases h
            · cases h
              have := undouble_some h1
              have := undouble_some h2
              exact ⟨by omega, hnil⟩
      · cases h1 : undouble msg pos with
        | none => rw [h1] at h; cases h
        | some t =>
          rw [h1] at h
          simp only [Option.bind_some] at h
          cases h2 : undouble msg t.2 with
          | none => rw [h2] at h; cases h
          | some n =>
            rw [h2] at h
            simp only [Option.bind_some] at h
            split at h
            · cases h
            · cases h
              have := undouble_some h1
              have := undouble_some h2
              exact ⟨by omega, hin _ _⟩
  case dtmf =>
    simp only [nextField, nextDtmf] at h
    split at h
    · cases h
    · split at h
      · split at h
        · cases h
        · cases h1 : msg[msg.length - 1]? with
          | none => rw [h1] at h; cases h
          | some t =>
            rw [h1] at h
            cases h
            exact ⟨by omega, hnil⟩
      · cases h1 : msg[pos - 1]? with
        | none => rw [h1] at h; cases h
        | some o =>
          rw [h1] at h
          simp only [Option.bind_some] at h
          generalize hp : (if isDigit o = true then pos - 1 else pos) = p0 at h
          cases h2 : msg[p0 + ((msg.drop p0).takeWhile isDigit).length]? with
          | none => rw [h2] at h; cases h
          | some e =>
            rw [h2] at h
            simp only [Option.bind_some] at h
            have hge : ∀ q : Nat, q ≤ (if e = 0x23 ∨ e = 0x43 then q + 1 else q) := by intro q; split <;> omega
            replace hge := hge (p0 + ((msg.drop p0).takeWhile isDigit).length)
            generalize (if e = 0x23 ∨ e = 0x43 then p0 + ((msg.drop p0).takeWhile isDigit).length + 1
              else p0 + ((msg.drop p0).takeWhile isDigit).length) = q at h hge
            split at h
            · cases h
            · cases h
              refine ⟨?_, ((List.takeWhile_prefix _).isInfix).trans (List.drop_suffix _ _).isInfix⟩
              have : pos ≤ p0 + ((msg.drop p0).takeWhile isDigit).length := by
                by_cases hd : isDigit o = true
                · rw [if_pos hd] at hp
                  have := takeWhile_ge (l := msg.drop p0) (p := isDigit) (a := o) (by rw [List.getElem?_drop, ← hp, Nat.add_zero]; exact h1) hd
                  omega
                · rw [if_neg hd] at hp; omega
              omega
  case tdd =>
    simp only [nextField] at h
    split at h
    · cases h
    · cases h; exact ⟨by omega, List.infix_rfl⟩
  all_goals exact hsum h

/-! ## Walking over messages which were received -/

theorem undouble_lt {msg : List Byte} {pos : Nat} (h : pos < msg.length) : ∃ r, undouble msg pos = some r ∧ pos + 1 ≤ r.2 ∧ r.2 ≤ pos + 2 := by
  unfold undouble
  rw [List.getElem?_eq_getElem h]
  refine ⟨_, rfl, ?_, ?_⟩ <;> simp only <;> split <;> omega

theorem nextJclip_safe {msg : List Byte} (h : 9 ≤ msg.length) (pos : Nat) : ∃ r, nextJclip msg pos = some r := by
  unfold nextJclip
  by_cases h1 : pos + 2 ≥ msg.length
  · exact ⟨_, if_pos h1⟩
  · rw [if_neg h1]
    by_cases h2 : pos = 0
    · rw [if_pos h2]
      obtain ⟨t, k1, k2, k3⟩ := undouble_lt (msg := msg) (pos := 5) (by omega)
      obtain ⟨n, k4, k5, k6⟩ := undouble_lt (msg := msg) (pos := t.2) (by omega)
      rw [k1, Option.bind_some, k4, Option.bind_some]
      split <;> exact ⟨_, rfl⟩
    · rw [if_neg h2]
      obtain ⟨t, k1, k2, k3⟩ := undouble_lt (msg := msg) (pos := pos) (by omega)
      obtain ⟨n, k4, k5, k6⟩ := undouble_lt (msg := msg) (pos := t.2) (by omega)
      rw [k1, Option.bind_some, k4, Option.bind_some]
      split <;> exact ⟨_, rfl⟩

/-- A walk comes to an end if no step of it reads outside. -/
theorem walk_ends {std : Std} {msg : List Byte} {P : Nat → Prop} (h : ∀ pos, P pos → ∃ r, nextField std msg pos = some r)
    (hP : ∀ pos p ty b, P pos → nextField std msg pos = some (.field p ty b) → P p) :
    ∀ (n pos : Nat), P pos → msg.length + 2 ≤ n + pos → (0 < n) → ∃ r, walk std msg n pos = some r
  | 0, _, _, _, hn => absurd hn (by omega)
  | n + 1, pos, hp, hf, _ => by
    rw [walk]
    obtain ⟨r, hr⟩ := h pos hp
    rw [hr]
    simp only [Option.bind_some]
    cases r with
    | done => exact ⟨_, rfl⟩
    | corrupt => exact ⟨_, rfl⟩
    | field p ty b =>
      simp only
      have hm := (nextField_moves hr).1
      by_cases hn : n = 0
      · subst hn
        rw [nextField_end (by omega)] at hr
        cases hr
      · obtain ⟨r, hr'⟩ := walk_ends h hP n p (hP _ _ _ _ hp hr) (by omega) (by omega)
        rw [hr']
        exact ⟨_, rfl⟩

/-! ## CLASS, CLIP and A-CLIP -/

/-- A field in a message. -/
def encField (f : Byte × List Byte) : List Byte := f.1 :: BitVec.ofNat 8 f.2.length :: f.2

def IsSum (std : Std) : Prop := std = .cls ∨ std = .clip ∨ std = .aclip

instance (std : Std) : Decidable (IsSum std) := by unfold IsSum; infer_instance

theorem build_fold {t : Tx} (hs : IsSum t.std) : ∀ (fs : List (Byte × List Byte)) {msg : List Byte}, msg ≠ [] → (∀ f ∈ fs, f.1 ≠ 0 ∧ f.2.length ≠ 16) →
    fs.foldlM (fun r f => addField r.1 r.2 f.1 f.2) (t, msg) = some (t, msg ++ fs.flatMap encField)
  | [], msg, _, _ => by simp
  | f :: fs, msg, hm, hf => by
    have h1 := hf f (by simp)
    rw [List.foldlM_cons]
    have : addField t msg f.1 f.2 = some (t, msg ++ encField f) := by
      unfold addField encField
      rcases hs with h | h | h <;> rw [h] <;> simp only <;> rw [if_neg hm, if_pos h1.1, if_neg h1.2] <;> simp
    simp only [this, Option.bind_eq_bind, Option.bind_some]
    rw [build_fold hs fs (by simp [hm]) (fun f h => hf f (by simp [h]))]
    simp

theorem build_sum {t : Tx} (hs : IsSum t.std) (type : Byte) (fs : List (Byte × List Byte)) (hf : ∀ f ∈ fs, f.1 ≠ 0 ∧ f.2.length ≠ 16) :
    build t type fs = some (t, [type, 0] ++ fs.flatMap encField) := by
  unfold build
  have : addField t [] type [] = some (t, [type, 0]) := by
    unfold addField
    rcases hs with h | h | h <;> rw [h] <;> rfl
  rw [this, Option.bind_some, build_fold hs fs (by simp) hf]

theorem walk_sum {std : Std} (hs : IsSum std) {type x : Byte} (ht : type &&& 0x80 ≠ 0) : ∀ (fs : List (Byte × List Byte)) (pre : List Byte) (n : Nat),
    (∀ f ∈ fs, f.2.length < 256) → fs.length < n →
    walk std ([type, x] ++ pre ++ fs.flatMap encField) n (2 + pre.length) = some (some fs)
  | [], pre, n + 1, _, _ => by
    rw [walk]
    have : nextField std ([type, x] ++ pre ++ [].flatMap encField) (2 + pre.length) = some .done := by
      have : nextSum ([type, x] ++ pre ++ [].flatMap encField) (2 + pre.length) = some .done := by
        unfold nextSum; rw [if_pos (by simp; omega)]
      rcases hs with h | h | h <;> rw [h] <;> exact this
    rw [this]; rfl
  | f :: fs, pre, n + 1, hf, hn => by
    rw [walk]
    have hlt := hf f (by simp)
    have hstep : nextSum ([type, x] ++ pre ++ (f :: fs).flatMap encField) (2 + pre.length) = some (.field (2 + (pre ++ encField f).length) f.1 f.2) := by
      have hm : [type, x] ++ pre ++ (f :: fs).flatMap encField = type :: x :: (pre ++ (f.1 :: BitVec.ofNat 8 f.2.length :: (f.2 ++ fs.flatMap encField))) := by
        simp [encField]
      have hbn : (BitVec.ofNat 8 f.2.length).toNat = f.2.length := by rw [BitVec.toNat_ofNat]; omega
      rw [hm]
      unfold nextSum
      rw [if_neg (by simp; omega), if_neg (by omega)]
      simp only [List.getElem?_cons_zero, Option.bind_some]
      rw [if_pos ht]
      rw [show 2 + pre.length = pre.length + 1 + 1 by omega, List.getElem?_cons_succ, List.getElem?_cons_succ, List.getElem?_append_right (by omega), Nat.sub_self]
      simp only [List.getElem?_cons_zero, Option.bind_some]
      rw [List.getElem?_cons_succ, List.getElem?_cons_succ, List.getElem?_append_right (by omega), show pre.length + 1 - pre.length = 1 by omega]
      simp only [List.getElem?_cons_zero, List.getElem?_cons_succ, Option.bind_some]
      rw [hbn, if_neg (by simp only [List.length_cons, List.length_append]; omega)]
      simp only [Option.some.injEq, Next.field.injEq, true_and]
      refine ⟨?_, ?_⟩
      · simp only [encField, List.length_append, List.length_cons]; omega
      · rw [show pre.length + 1 + 1 + 2 = pre.length + 2 + 1 + 1 by omega]
        simp only [List.drop_succ_cons]
        rw [List.drop_append, List.drop_of_length_le (by omega), show pre.length + 2 - pre.length = 2 by omega]
        simp
    have hw := walk_sum hs (x := x) ht fs (pre ++ encField f) n (fun f h => hf f (by simp [h])) (by simp at hn; omega)
    rw [show [type, x] ++ (pre ++ encField f) ++ fs.flatMap encField = [type, x] ++ pre ++ (f :: fs).flatMap encField by simp] at hw
    have : nextField std ([type, x] ++ pre ++ (f :: fs).flatMap encField) (2 + pre.length) = some (.field (2 + (pre ++ encField f).length) f.1 f.2) := by
      rcases hs with h | h | h <;> rw [h] <;> exact hstep
    rw [this]
    simp only [Option.bind_some]
    rw [hw]
    rfl

theorem len_flatMap (fs : List (Byte × List Byte)) : fs.length ≤ (fs.flatMap encField).length := by
  induction fs with
  | nil => simp
  | cons f fs ih => simp only [List.flatMap_cons, List.length_append, encField, List.length_cons]; omega

theorem mem_flatMap_len {fs : List (Byte × List Byte)} {f : Byte × List Byte} (h : f ∈ fs) : f.2.length + 2 ≤ (fs.flatMap encField).length := by
  induction fs with
  | nil => cases h
  | cons g fs ih =>
    simp only [List.flatMap_cons, List.length_append, encField, List.length_cons]
    rcases List.mem_cons.mp h with rfl | h
    · omega
    · have := ih h; omega

theorem fields_sum {std : Std} (hs : IsSum std) {type x : Byte} (ht : type &&& 0x80 ≠ 0) (fs : List (Byte × List Byte)) (hl : (fs.flatMap encField).length ≤ 253) :
    fields std ([type, x] ++ fs.flatMap encField) = some (some ((type, []) :: fs)) := by
  have hlen := len_flatMap fs
  unfold fields
  rw [show ([type, x] ++ fs.flatMap encField).length + 2 = (fs.flatMap encField).length + 3 + 1 by simp, walk]
  have h0 : nextField std ([type, x] ++ fs.flatMap encField) 0 = some (.field 2 type []) := by
    have : nextSum ([type, x] ++ fs.flatMap encField) 0 = some (.field 2 type []) := by
      unfold nextSum
      rw [if_neg (by simp), if_pos rfl]
      simp
    rcases hs with h | h | h <;> rw [h] <;> exact this
  rw [h0]
  simp only [Option.bind_some]
  have := walk_sum hs (x := x) ht fs [] ((fs.flatMap encField).length + 3) (by intro f hf; have := mem_flatMap_len hf; omega) (by omega)
  simp only [List.append_nil, List.length_nil, Nat.add_zero] at this
  rw [this]
  rfl

theorem fields_single {std : Std} (hs : IsSum std) {type x : Byte} (ht : type &&& 0x80 = 0) {body : List Byte} (hb : body ≠ []) :
    fields std ([type, x] ++ body) = some (some [(type, []), (0, body)]) := by
  have hlb := List.length_pos_iff.mpr hb
  unfold fields
  have h0 : nextField std ([type, x] ++ body) 0 = some (.field 2 type []) := by
    have : nextSum ([type, x] ++ body) 0 = some (.field 2 type []) := by
      unfold nextSum
      rw [if_neg (by simp), if_pos rfl]
      simp
    rcases hs with h | h | h <;> rw [h] <;> exact this
  have h2 : nextField std ([type, x] ++ body) 2 = some (.field ([type, x] ++ body).length 0 body) := by
    have : nextSum ([type, x] ++ body) 2 = some (.field ([type, x] ++ body).length 0 body) := by
      unfold nextSum
      rw [if_neg (by simp; exact hb), if_neg (by omega)]
      simp only [List.cons_append, List.getElem?_cons_zero, Option.bind_some]
      rw [if_neg (by rw [ht]; simp)]
      rfl
    rcases hs with h | h | h <;> rw [h] <;> exact this
  have h3 : nextField std ([type, x] ++ body) ([type, x] ++ body).length = some .done := by
    have : nextSum ([type, x] ++ body) ([type, x] ++ body).length = some .done := by
      unfold nextSum
      rw [if_pos (Nat.le_refl _)]
    rcases hs with h | h | h <;> rw [h] <;> exact this
  rw [show ([type, x] ++ body).length + 2 = ([type, x] ++ body).length - 1 + 1 + 1 + 1 by simp]
  rw [walk, h0]
  simp only [Option.bind_some]
  rw [walk, h2]
  simp only [Option.bind_some]
  rw [walk, h3]
  rfl

end Adsi
