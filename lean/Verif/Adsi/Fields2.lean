import Verif.Adsi.Fields

/-!
# Fields of J-CLIP, digits and text
-/

set_option linter.unusedSimpArgs false

namespace Adsi

/-! ## J-CLIP -/

/-- An octet, doubled if it is DLE. -/
def dup (x : Byte) : List Byte := x :: if x = DLE then [x] else []

/-- A field in a message. -/
def encJ (f : Byte × List Byte) : List Byte := dup f.1 ++ dup (BitVec.ofNat 8 f.2.length) ++ f.2

theorem undouble_at (a rest : List Byte) (x : Byte) : undouble (a ++ (dup x ++ rest)) a.length = some (x, (a ++ dup x).length) := by
  unfold undouble
  have : (a ++ (dup x ++ rest))[a.length]? = some x := by
    rw [List.getElem?_append_right (Nat.le_refl _), Nat.sub_self]; rfl
  rw [this]
  simp only [Option.bind_some, Option.some.injEq, Prod.mk.injEq, true_and, List.length_append, dup, List.length_cons]
  split <;> simp

theorem len16 {n : Nat} (h : n < 256) : (BitVec.ofNat 8 n : Byte) = DLE ↔ n = 16 := by
  constructor
  · intro k
    have := congrArg BitVec.toNat k
    rw [BitVec.toNat_ofNat, Nat.mod_eq_of_lt (by omega)] at this
    exact this
  · rintro rfl; rfl

theorem flatMap_clear : ∀ (b : List Byte), DLE ∉ b → b.flatMap (fun o => if o = DLE then [o, o] else [o]) = b
  | [], _ => rfl
  | x :: b, h => by
    simp only [List.mem_cons, not_or] at h
    rw [List.flatMap_cons, if_neg (Ne.symm h.1), flatMap_clear b h.2]
    rfl

theorem build_foldJ {t : Tx} (hs : t.std = .jclip) : ∀ (fs : List (Byte × List Byte)) {msg : List Byte}, msg ≠ [] →
    (∀ f ∈ fs, DLE ∉ f.2 ∧ f.2.length < 256) → fs.foldlM (fun r f => addField r.1 r.2 f.1 f.2) (t, msg) = some (t, msg ++ fs.flatMap encJ)
  | [], msg, _, _ => by simp
  | f :: fs, msg, hm, hf => by
    have h1 := hf f (by simp)
    rw [List.foldlM_cons]
    have : addField t msg f.1 f.2 = some (t, msg ++ encJ f) := by
      unfold addField encJ dup
      rw [hs]
      simp only
      rw [if_neg hm, flatMap_clear _ h1.1]
      simp only [len16 h1.2, List.append_assoc, List.cons_append, List.nil_append]
    simp only [this, Option.bind_eq_bind, Option.bind_some]
    rw [build_foldJ hs fs (by simp [hm]) (fun f h => hf f (by simp [h]))]
    simp

theorem build_jclip {t : Tx} (hs : t.std = .jclip) (type : Byte) (fs : List (Byte × List Byte)) (hf : ∀ f ∈ fs, DLE ∉ f.2 ∧ f.2.length < 256) :
    build t type fs = some (t, [type, 0] ++ fs.flatMap encJ) := by
  unfold build
  have : addField t [] type [] = some (t, [type, 0]) := by
    unfold addField
    rw [hs]; rfl
  rw [this, Option.bind_some, build_foldJ hs fs (by simp) hf]

theorem walk_jclip : ∀ (fs : List (Byte × List Byte)) (a : List Byte) (n : Nat), a ≠ [] →
    (∀ f ∈ fs, f.2.length < 256) → fs.length < n → walk .jclip (a ++ fs.flatMap encJ ++ [DLE, 0x03]) n a.length = some (some fs)
  | [], a, n + 1, _, _, _ => by
    rw [walk]
    simp only [nextField, nextJclip]
    rw [if_pos (by simp)]
    rfl
  | f :: fs, a, n + 1, ha, hf, hn => by
    rw [walk]
    have hlt := hf f (by simp)
    have hla := List.length_pos_iff.mpr ha
    have hbn : (BitVec.ofNat 8 f.2.length).toNat = f.2.length := by rw [BitVec.toNat_ofNat]; omega
    have hstep : nextField .jclip (a ++ (f :: fs).flatMap encJ ++ [DLE, 0x03]) a.length = some (.field (a ++ encJ f).length f.1 f.2) := by
      have hm : a ++ (f :: fs).flatMap encJ ++ [DLE, 0x03] = a ++ (dup f.1 ++ (dup (BitVec.ofNat 8 f.2.length) ++ (f.2 ++ (fs.flatMap encJ ++ [DLE, 0x03])))) := by
        simp [encJ]
      rw [hm]
      simp only [nextField, nextJclip]
      rw [if_neg (by simp only [List.length_append, dup, List.length_cons, List.length_nil]; omega), if_neg (by omega), undouble_at, Option.bind_some]
      simp only
      rw [← List.append_assoc, undouble_at, Option.bind_some]
      simp only
      rw [hbn, if_neg (by simp only [List.length_append, List.length_cons, List.length_nil]; omega)]
      simp only [Option.some.injEq, Next.field.injEq, true_and]
      refine ⟨by simp only [encJ, List.length_append]; omega, ?_⟩
      rw [← List.append_assoc (a ++ dup f.1), List.drop_left, List.take_left]
    have hw := walk_jclip fs (a ++ encJ f) n (by simp [ha]) (fun f h => hf f (by simp [h])) (by simp at hn; omega)
    rw [show a ++ encJ f ++ fs.flatMap encJ ++ [DLE, 0x03] = a ++ (f :: fs).flatMap encJ ++ [DLE, 0x03] by simp] at hw
    rw [hstep]
    simp only [Option.bind_some]
    rw [hw]
    rfl

theorem len_flatMapJ (fs : List (Byte × List Byte)) : fs.length ≤ (fs.flatMap encJ).length := by
  induction fs with
  | nil => simp
  | cons f fs ih => simp only [List.flatMap_cons, List.length_append, encJ, dup, List.length_cons]; omega

theorem fields_jclip {type : Byte} (ht : type ≠ DLE) (fs : List (Byte × List Byte)) (hf : ∀ f ∈ fs, f.2.length < 256) (hl : (fs.flatMap encJ).length < 256)
    (hl' : (fs.flatMap encJ).length ≠ 16) :
    fields .jclip (given .jclip ([type, 0] ++ fs.flatMap encJ)) = some (some ((type, []) :: fs)) := by
  have hlen := len_flatMapJ fs
  have hg : given .jclip ([type, 0] ++ fs.flatMap encJ)
      = [DLE, 0x01, 0x07, DLE, 0x02] ++ (dup type ++ (dup (BitVec.ofNat 8 (fs.flatMap encJ).length) ++ (fs.flatMap encJ ++ [DLE, 0x03]))) := by
    have hd1 : dup type = [type] := by unfold dup; rw [if_neg ht]
    have hd2 : dup (BitVec.ofNat 8 (fs.flatMap encJ).length) = [BitVec.ofNat 8 (fs.flatMap encJ).length] := by
      unfold dup; rw [if_neg (by rw [len16 hl]; exact hl')]
    rw [hd1, hd2]
    unfold given
    rw [if_pos rfl]
    simp
  rw [hg]
  unfold fields
  generalize hL : ([DLE, 0x01, 0x07, DLE, 0x02] ++ (dup type ++ (dup (BitVec.ofNat 8 (fs.flatMap encJ).length) ++ (fs.flatMap encJ ++ [DLE, 0x03])))).length = L
  have hL' : (fs.flatMap encJ).length + 9 ≤ L := by
    rw [← hL]; simp only [List.length_append, dup, List.length_cons, List.length_nil]; omega
  rw [show L + 2 = L + 1 + 1 from rfl, walk]
  have h0 : nextField .jclip ([DLE, 0x01, 0x07, DLE, 0x02] ++ (dup type ++ (dup (BitVec.ofNat 8 (fs.flatMap encJ).length) ++ (fs.flatMap encJ ++ [DLE, 0x03])))) 0
      = some (.field ([DLE, 0x01, 0x07, DLE, 0x02] ++ dup type ++ dup (BitVec.ofNat 8 (fs.flatMap encJ).length)).length type []) := by
    simp only [nextField, nextJclip]
    rw [if_neg (by omega), if_pos trivial]
    have e := undouble_at [DLE, 0x01, 0x07, DLE, 0x02] (dup (BitVec.ofNat 8 (fs.flatMap encJ).length) ++ (fs.flatMap encJ ++ [DLE, 0x03])) type
    rw [show ([DLE, 0x01, 0x07, DLE, 0x02] : List Byte).length = 5 from rfl] at e
    rw [e, Option.bind_some]
    simp only
    rw [← List.append_assoc, undouble_at, Option.bind_some]
    simp only
    rw [if_neg (by simp only [List.length_append, List.length_cons, List.length_nil]; omega)]
  rw [h0]
  simp only [Option.bind_some]
  have := walk_jclip fs ([DLE, 0x01, 0x07, DLE, 0x02] ++ dup type ++ dup (BitVec.ofNat 8 (fs.flatMap encJ).length)) (L + 1) (by simp) hf (by omega)
  simp only [List.append_assoc] at this ⊢
  rw [this]
  rfl

/-! ## Digits -/

theorem dtmfLoop_full {s : Rx} (h : ¬ s.msg.length < 256) (l : List Byte) : dtmfLoop s l = some s := by
  cases l with
  | nil => rfl
  | cons d l => rw [dtmfLoop, if_neg h]

/-- No more than 256 digits in a message. -/
def Short (m l : List Byte) : Prop := (∀ p ∈ (cut m l).1, p.length ≤ 256) ∧ (cut m l).2.length ≤ 256

theorem Short.acc : ∀ {l m : List Byte}, Short m l → m.length ≤ 256
  | [], m, h => h.2
  | d :: l, m, h => by
    unfold Short cut at h
    by_cases hd : d = 0x23 ∨ d = 0x43
    · rw [if_pos hd] at h
      have := h.1 (m ++ [d]) (by simp)
      rw [List.length_append] at this
      omega
    · rw [if_neg hd] at h
      have := Short.acc (m := m ++ [d]) h
      rw [List.length_append] at this
      omega

theorem Short.lt {d : Byte} {l m : List Byte} (h : Short m (d :: l)) : m.length < 256 := by
  unfold Short cut at h
  by_cases hd : d = 0x23 ∨ d = 0x43
  · rw [if_pos hd] at h
    have := h.1 (m ++ [d]) (by simp)
    rw [List.length_append, List.length_singleton] at this
    omega
  · rw [if_neg hd] at h
    have := Short.acc (m := m ++ [d]) h
    rw [List.length_append, List.length_singleton] at this
    omega

theorem cut_append : ∀ (a m b : List Byte), cut m (a ++ b) = ((cut m a).1 ++ (cut (cut m a).2 b).1, (cut (cut m a).2 b).2)
  | [], m, b => by simp [cut]
  | d :: a, m, b => by
    rw [List.cons_append, cut]
    by_cases hd : d = 0x23 ∨ d = 0x43
    · rw [if_pos hd, cut, if_pos hd]
      simp only
      rw [cut_append a [] b]
      simp
    · rw [if_neg hd, cut, if_neg hd]
      exact cut_append a (m ++ [d]) b

theorem dtmfLoop_cut : ∀ (l : List Byte) {s : Rx}, Short s.msg l →
    dtmfLoop s l = some { s with msg := (cut s.msg l).2, out := s.out ++ (cut s.msg l).1 }
  | [], s, _ => by simp [dtmfLoop, cut]
  | d :: l, s, h => by
    have hlt := h.lt
    rw [dtmfLoop, if_pos hlt]
    unfold Rx.store
    rw [if_pos hlt, Option.bind_some]
    by_cases hd : d = 0x23 ∨ d = 0x43
    · rw [if_pos hd]
      have hs : Short [] l := by
        unfold Short at h ⊢
        rw [cut, if_pos hd] at h
        exact ⟨fun p hp => h.1 p (by simp [hp]), h.2⟩
      rw [dtmfLoop_cut l (s := _) hs]
      simp only [Rx.give, cut, if_pos hd]
      simp
    · rw [if_neg hd]
      have hs : Short (s.msg ++ [d]) l := by
        unfold Short at h ⊢
        rwa [cut, if_neg hd] at h
      rw [dtmfLoop_cut l (s := _) hs]
      simp only [cut, if_neg hd]

theorem digs_cut : ∀ (l : List Dig) {r : Rx}, Short r.msg (Dig.all l) → Dig.time l < 80000 → (r.msg = [] ∨ (Dig.time l : Int) < r.timer) →
    ∃ r', r.digs l = some r' ∧ r'.std = r.std ∧ r'.out = r.out ++ (cut r.msg (Dig.all l)).1 ∧ r'.msg = (cut r.msg (Dig.all l)).2
  | [], r, _, _, _ => ⟨r, rfl, rfl, by simp [Dig.all, cut], by simp [Dig.all, cut]⟩
  | .samples n :: l, r, h, ht, hi => by
    have e1 : Dig.all (.samples n :: l) = Dig.all l := by simp [Dig.all]
    have e2 : Dig.time (.samples n :: l) = n + Dig.time l := by simp [Dig.time]
    rw [e1] at h ⊢
    rw [e2] at ht hi
    have hm : (tick r n).msg = r.msg := by
      unfold tick
      simp only
      rcases hi with hi | hi
      · rw [hi]; split <;> rfl
      · rw [if_neg (by omega)]
    obtain ⟨r', k1, k2, k3, k4⟩ := digs_cut l (r := tick r n) (by rw [hm]; exact h) (by omega) (by
      rw [hm]
      rcases hi with hi | hi
      · exact Or.inl hi
      · right
        unfold tick
        simp only
        omega)
    rw [hm] at k3 k4
    exact ⟨r', by rw [Rx.digs]; exact k1, k2, k3, k4⟩
  | .digits d :: l, r, h, ht, hi => by
    have e1 : Dig.all (.digits d :: l) = d ++ Dig.all l := by simp [Dig.all]
    have e2 : Dig.time (.digits d :: l) = Dig.time l := by simp [Dig.time]
    rw [e1] at h ⊢
    rw [e2] at ht hi
    have hsd : Short r.msg d := by
      unfold Short at h ⊢
      rw [cut_append] at h
      exact ⟨fun p hp => h.1 p (by simp [hp]), Short.acc (l := Dig.all l) ⟨fun p hp => h.1 p (by simp [hp]), h.2⟩⟩
    have hrest : Short (cut r.msg d).2 (Dig.all l) := by
      unfold Short at h ⊢
      rw [cut_append] at h
      exact ⟨fun p hp => h.1 p (by simp [hp]), h.2⟩
    have hp : ∃ s1, putDigits r d = some s1 ∧ s1.std = r.std ∧ s1.out = r.out ++ (cut r.msg d).1 ∧ s1.msg = (cut r.msg d).2 ∧ (Dig.time l : Int) < s1.timer := by
      unfold putDigits
      by_cases h0 : r.msg.length = 0
      · rw [if_pos h0, dtmfLoop_cut d (by exact hsd)]
        exact ⟨_, rfl, rfl, rfl, rfl, by simp only; omega⟩
      · rw [if_neg h0, dtmfLoop_cut d hsd]
        refine ⟨_, rfl, rfl, rfl, rfl, ?_⟩
        simp only
        rcases hi with hi | hi
        · rw [hi] at h0; exact absurd rfl h0
        · exact hi
    obtain ⟨s1, p1, p2, p3, p4, p5⟩ := hp
    obtain ⟨r', k1, k2, k3, k4⟩ := digs_cut l (r := s1) (by rw [p4]; exact hrest) ht (Or.inr p5)
    refine ⟨r', by rw [Rx.digs, Rx.dig, p1]; exact k1, k2.trans p2, ?_, ?_⟩
    · rw [k3, p3, p4, cut_append]; simp
    · rw [k4, p4, cut_append]

/-- A message of digits: it ends with `#` or `C`, and has neither before the end. -/
def Ended (m : List Byte) : Prop := m.length ≤ 256 ∧ ∃ a d, m = a ++ [d] ∧ (d = 0x23 ∨ d = 0x43) ∧ ∀ x ∈ a, x ≠ 0x23 ∧ x ≠ 0x43

/-- A receiver of digits. -/
structure DOk (r : Rx) : Prop where
  len : r.msg.length ≤ 256
  free : ∀ x ∈ r.msg, x ≠ 0x23 ∧ x ≠ 0x43

theorem dtmfLoop_ok : ∀ (l : List Byte) {s : Rx}, DOk s → ∃ s', dtmfLoop s l = some s' ∧ DOk s' ∧ ∃ ms, s'.out = s.out ++ ms ∧ ∀ m ∈ ms, Ended m
  | [], s, h => ⟨s, rfl, h, [], by simp, by simp⟩
  | d :: l, s, h => by
    by_cases hlt : s.msg.length < 256
    · rw [dtmfLoop, if_pos hlt]
      unfold Rx.store
      rw [if_pos hlt, Option.bind_some]
      by_cases hd : d = 0x23 ∨ d = 0x43
      · rw [if_pos hd]
        obtain ⟨s', k1, k2, ms, k3, k4⟩ := dtmfLoop_ok l (s := { ({ s with msg := s.msg ++ [d] } : Rx).give (s.msg ++ [d]) with msg := [] }) ⟨by simp, by simp⟩
        refine ⟨s', k1, k2, (s.msg ++ [d]) :: ms, by rw [k3]; simp [Rx.give], ?_⟩
        intro m hm
        rcases List.mem_cons.mp hm with rfl | hm
        · exact ⟨by simp; omega, s.msg, d, rfl, hd, h.free⟩
        · exact k4 m hm
      · rw [if_neg hd]
        refine dtmfLoop_ok l (s := _) ⟨by simp; omega, ?_⟩
        intro x hx
        simp only [List.mem_append, List.mem_singleton] at hx
        rcases hx with hx | rfl
        · exact h.free x hx
        · exact not_or.mp hd
    · exact ⟨s, dtmfLoop_full hlt _, h, [], by simp, by simp⟩

theorem digs_ok : ∀ (l : List Dig) {s : Rx}, DOk s → ∃ s', s.digs l = some s' ∧ DOk s' ∧ ∃ ms, s'.out = s.out ++ ms ∧ ∀ m ∈ ms, Ended m
  | [], s, h => ⟨s, rfl, h, [], by simp, by simp⟩
  | .samples n :: l, s, h => by
    obtain ⟨s', k1, k2, ms, k3, k4⟩ := digs_ok l (s := tick s n) (by
      unfold tick
      refine ⟨?_, ?_⟩ <;> simp only <;> split
      · simp
      · exact h.len
      · simp
      · exact h.free)
    exact ⟨s', by rw [Rx.digs]; exact k1, k2, ms, k3, k4⟩
  | .digits d :: l, s, h => by
    have hp : ∃ s', putDigits s d = some s' ∧ DOk s' ∧ ∃ ms, s'.out = s.out ++ ms ∧ ∀ m ∈ ms, Ended m := by
      unfold putDigits
      split
      · exact dtmfLoop_ok d (s := { s with timer := 80000 }) ⟨h.len, h.free⟩
      · exact dtmfLoop_ok d h
    obtain ⟨s1, p1, p2, m1, p3, p4⟩ := hp
    obtain ⟨s2, k1, k2, m2, k3, k4⟩ := digs_ok l p2
    refine ⟨s2, by rw [Rx.digs, Rx.dig, p1]; exact k1, k2, m1 ++ m2, by rw [k3, p3]; simp, ?_⟩
    intro m hm
    rcases List.mem_append.mp hm with hm | hm
    · exact p4 m hm
    · exact k4 m hm

/-! ## Fields of digits -/

/-- A field in a message of digits. -/
def encD (f : Byte × List Byte) : List Byte := f.1 :: f.2

/-- Fields which can be told apart: the type is a letter which does not end the message, and the body is digits. -/
def DField (f : Byte × List Byte) : Prop := f.1 ≠ 0 ∧ isDigit f.1 = false ∧ f.1 ≠ 0x23 ∧ f.1 ≠ 0x43 ∧ ∀ o ∈ f.2, isDigit o = true

theorem build_foldD {t : Tx} (hs : t.std = .dtmf) (type : Byte) : ∀ (fs : List (Byte × List Byte)) {a : List Byte}, (∀ f ∈ fs, f.1 ≠ 0) →
    fs.foldlM (fun r f => addField r.1 r.2 f.1 f.2) (t, a ++ [type]) = some (t, a ++ fs.flatMap encD ++ [type])
  | [], a, _ => by simp
  | f :: fs, a, hf => by
    rw [List.foldlM_cons]
    have : addField t (a ++ [type]) f.1 f.2 = some (t, (a ++ encD f) ++ [type]) := by
      unfold addField encD
      rw [hs]
      simp only
      rw [if_neg (by simp), List.getLast?_concat, Option.bind_some, List.dropLast_concat, if_pos (hf f (by simp))]
      simp
    simp only [this, Option.bind_eq_bind, Option.bind_some]
    rw [build_foldD hs type fs (fun f h => hf f (by simp [h]))]
    simp

theorem build_dtmf {t : Tx} (hs : t.std = .dtmf) (type : Byte) (fs : List (Byte × List Byte)) (hf : ∀ f ∈ fs, f.1 ≠ 0) :
    build t type fs = some (t, fs.flatMap encD ++ [type]) := by
  unfold build
  have : addField t [] type [] = some (t, [] ++ [type]) := by
    unfold addField
    rw [hs]; rfl
  rw [this, Option.bind_some, build_foldD hs type fs hf]
  simp

theorem takeWhile_digits {b rest : List Byte} (h : ∀ o ∈ b, isDigit o = true) {x : Byte} (hx : isDigit x = false) :
    (b ++ (x :: rest)).takeWhile isDigit = b := by
  induction b with
  | nil => simp [hx]
  | cons y b ih =>
    rw [List.cons_append, List.takeWhile_cons, if_pos (h y (by simp)), ih (fun o ho => h o (by simp [ho]))]

theorem fields_plain {type : Byte} (ht : type = 0x23 ∨ type = 0x43) {body : List Byte} (hne : body ≠ []) (hf : ∀ o ∈ body, isDigit o = true) :
    fields .dtmf (body ++ [type]) = some (some [(type, []), (0, body)]) := by
  have htd : isDigit type = false := by rcases ht with rfl | rfl <;> decide
  have hlb := List.length_pos_iff.mpr hne
  unfold fields
  have h0 : nextField .dtmf (body ++ [type]) 0 = some (.field 1 type []) := by
    simp only [nextField, nextDtmf]
    rw [if_neg (by omega), if_pos trivial, if_neg (by simp)]
    rw [show (body ++ [type])[(body ++ [type]).length - 1]? = some type by simp]
    rfl
  have h1 : nextField .dtmf (body ++ [type]) 1 = some (.field (body.length + 1 + 1) 0 body) := by
    simp only [nextField, nextDtmf]
    rw [if_neg (by simp), if_neg (by omega), Nat.sub_self, List.getElem?_append_left hlb, List.getElem?_eq_getElem hlb, Option.bind_some]
    simp only [hf _ (List.getElem_mem hlb), if_true, List.drop_zero, takeWhile_digits hf htd, Nat.zero_add]
    rw [show (body ++ [type])[body.length]? = some type by simp, Option.bind_some]
    simp only [if_pos ht]
    rw [if_neg (by simp)]
  rw [show (body ++ [type]).length + 2 = body.length + 1 + 1 + 1 by simp, walk, h0]
  simp only [Option.bind_some]
  rw [walk, h1]
  simp only [Option.bind_some]
  rw [walk, nextField_end (by simp)]
  rfl

theorem walk_dtmf {type : Byte} (ht : type = 0x23 ∨ type = 0x43) : ∀ (fs : List (Byte × List Byte)) (a : List Byte) (f : Byte × List Byte) (n : Nat),
    (∀ g ∈ f :: fs, DField g) → fs.length + 1 < n →
    walk .dtmf (a ++ (f :: fs).flatMap encD ++ [type]) n (a.length + 1) = some (some (f :: fs))
  | fs, a, f, n + 1, hf, hn => by
    obtain ⟨h0, h1, h2, h3, h4⟩ := hf f (by simp)
    have htd : isDigit type = false := by rcases ht with rfl | rfl <;> decide
    have hnext : ∃ x rest, fs.flatMap encD ++ [type] = x :: rest ∧ isDigit x = false ∧ (fs = [] → x = type) ∧ (fs ≠ [] → x ≠ 0x23 ∧ x ≠ 0x43) := by
      cases fs with
      | nil => exact ⟨type, [], rfl, htd, fun _ => rfl, fun h => absurd rfl h⟩
      | cons g fs =>
        obtain ⟨-, g1, g2, g3, -⟩ := hf g (by simp)
        exact ⟨g.1, g.2 ++ (fs.flatMap encD ++ [type]), by simp [encD], g1, (fun h => by cases h), fun _ => ⟨g2, g3⟩⟩
    obtain ⟨x, rest, e, hx, hx1, hx2⟩ := hnext
    have hm : a ++ (f :: fs).flatMap encD ++ [type] = (a ++ [f.1]) ++ (f.2 ++ (x :: rest)) := by
      rw [← e]; simp [encD]
    have hstep : nextField .dtmf (a ++ (f :: fs).flatMap encD ++ [type]) (a.length + 1)
        = some (.field (a.length + 1 + f.2.length + (if fs = [] then 1 else 0) + 1) f.1 f.2) := by
      rw [hm]
      simp only [nextField, nextDtmf]
      rw [if_neg (by simp), if_neg (by omega), Nat.add_sub_cancel]
      have hg : ((a ++ [f.1]) ++ (f.2 ++ (x :: rest)))[a.length]? = some f.1 := by
        rw [List.append_assoc, List.getElem?_append_right (Nat.le_refl _), Nat.sub_self]; rfl
      rw [hg, Option.bind_some]
      simp only [h1, Bool.false_eq_true, if_false]
      rw [show a.length + 1 = (a ++ [f.1]).length by simp, List.drop_left, takeWhile_digits h4 hx]
      rw [show (a ++ [f.1] ++ (f.2 ++ x :: rest))[(a ++ [f.1]).length + f.2.length]? = some x by
        rw [List.getElem?_append_right (by omega), Nat.add_sub_cancel_left, List.getElem?_append_right (Nat.le_refl _), Nat.sub_self]; rfl]
      simp only [Option.bind_some]
      have hq : ∀ q : Nat, (if x = 0x23 ∨ x = 0x43 then q + 1 else q) = q + (if fs = [] then 1 else 0) := by
        intro q
        by_cases hfs : fs = []
        · rw [if_pos hfs, if_pos (by rw [hx1 hfs]; exact ht)]
        · have := hx2 hfs
          rw [if_neg hfs, if_neg (by rintro (h | h); exact this.1 h; exact this.2 h)]
          rfl
      rw [hq, if_neg (by
        simp only [List.length_append, List.length_cons, List.length_nil]
        split <;> omega)]
    rw [walk, hstep]
    simp only [Option.bind_some]
    cases fs with
    | nil =>
      have e1 : [].flatMap encD ++ [type] = [type] := rfl
      rw [if_pos rfl]
      match n, hn with
      | n + 1, _ =>
        rw [walk, nextField_end (by simp only [List.flatMap_cons, List.flatMap_nil, encD, List.length_append, List.length_cons, List.length_nil]; omega)]
        rfl
    | cons g fs =>
      have hw := walk_dtmf ht fs (a ++ encD f) g n (fun g h => hf g (by simp at h ⊢; tauto)) (by simp at hn; omega)
      rw [show a ++ encD f ++ (g :: fs).flatMap encD ++ [type] = a ++ (f :: g :: fs).flatMap encD ++ [type] by simp] at hw
      rw [if_neg (by simp)]
      rw [show a.length + 1 + f.2.length + 0 + 1 = (a ++ encD f).length + 1 by simp only [encD, List.length_append, List.length_cons]; omega, hw]
      rfl

theorem len_flatMapD (fs : List (Byte × List Byte)) : fs.length ≤ (fs.flatMap encD).length := by
  induction fs with
  | nil => simp
  | cons f fs ih => simp only [List.flatMap_cons, List.length_append, encD, List.length_cons]; omega

theorem fields_dtmf {type : Byte} (ht : type = 0x23 ∨ type = 0x43) {fs : List (Byte × List Byte)} (hne : fs ≠ []) (hf : ∀ f ∈ fs, DField f) :
    fields .dtmf (fs.flatMap encD ++ [type]) = some (some ((type, []) :: fs)) := by
  have hlen := len_flatMapD fs
  unfold fields
  rw [show (fs.flatMap encD ++ [type]).length + 2 = (fs.flatMap encD).length + 2 + 1 by simp, walk]
  have h0 : nextField .dtmf (fs.flatMap encD ++ [type]) 0 = some (.field 1 type []) := by
    simp only [nextField, nextDtmf]
    rw [if_neg (by omega), if_pos trivial, if_neg (by simp)]
    rw [show (fs.flatMap encD ++ [type])[(fs.flatMap encD ++ [type]).length - 1]? = some type by simp]
    rfl
  rw [h0]
  simp only [Option.bind_some]
  match fs, hne with
  | f :: fs, _ =>
    have := walk_dtmf ht fs [] f (((f :: fs).flatMap encD).length + 2) hf (by simp only [List.length_cons] at hlen; omega)
    simp only [List.nil_append, List.length_nil, Nat.zero_add] at this
    rw [this]
    rfl

theorem fields_ended {m : List Byte} (h : Ended m) (h2 : 2 ≤ m.length) : ∃ r, fields .dtmf m = some r := by
  obtain ⟨-, a, d, rfl, hd, ha⟩ := h
  have htd : isDigit d = false := by rcases hd with rfl | rfl <;> decide
  rw [List.length_append, List.length_singleton] at h2
  unfold fields
  refine walk_ends (P := fun pos => pos ≠ a.length + 1) ?_ ?_ _ 0 (by omega) (by omega) (by omega)
  · intro pos hp
    simp only [nextField, nextDtmf]
    by_cases h1 : pos > (a ++ [d]).length
    · rw [if_pos h1]; exact ⟨_, rfl⟩
    · rw [if_neg h1]
      rw [List.length_append, List.length_singleton] at h1
      by_cases h0 : pos = 0
      · rw [if_pos h0, if_neg (by simp), show (a ++ [d])[(a ++ [d]).length - 1]? = some d by simp]; exact ⟨_, rfl⟩
      · rw [if_neg h0, List.getElem?_eq_getElem (by simp; omega), Option.bind_some]
        generalize (a ++ [d])[pos - 1]'(by simp; omega) = o
        have hp0 : (if isDigit o = true then pos - 1 else pos) ≤ a.length := by split <;> omega
        generalize (if isDigit o = true then pos - 1 else pos) = p at hp0
        have hle : ((a ++ [d]).drop p).takeWhile isDigit = (a.drop p).takeWhile isDigit := by
          rw [List.drop_append_of_le_length hp0]
          generalize a.drop p = b
          induction b with
          | nil => simp [htd]
          | cons x b ih => rw [List.cons_append, List.takeWhile_cons, List.takeWhile_cons, ih]
        have hq : p + ((a.drop p).takeWhile isDigit).length ≤ a.length := by
          have := List.IsPrefix.length_le (List.takeWhile_prefix (l := a.drop p) isDigit)
          rw [List.length_drop] at this
          omega
        rw [hle, List.getElem?_eq_getElem (by simp; omega), Option.bind_some]
        by_cases hgt : (if (a ++ [d])[p + ((a.drop p).takeWhile isDigit).length]'(by simp; omega) = 0x23 ∨ (a ++ [d])[p + ((a.drop p).takeWhile isDigit).length]'(by simp; omega) = 0x43
            then p + ((a.drop p).takeWhile isDigit).length + 1 else p + ((a.drop p).takeWhile isDigit).length) > (a ++ [d]).length
        · rw [if_pos hgt]; exact ⟨_, rfl⟩
        · rw [if_neg hgt]; exact ⟨_, rfl⟩
  · intro pos p ty b hp hr he
    subst he
    simp only [nextField, nextDtmf] at hr
    split at hr
    · cases hr
    · split at hr
      · split at hr
        · cases hr
        · cases h1 : (a ++ [d])[(a ++ [d]).length - 1]? with
          | none => rw [h1] at hr; cases hr
          | some t => rw [h1, Option.bind_some] at hr; simp only [Option.some.injEq, Next.field.injEq] at hr; omega
      · cases h1 : (a ++ [d])[pos - 1]? with
        | none => rw [h1] at hr; cases hr
        | some o =>
          rw [h1, Option.bind_some] at hr
          generalize (if isDigit o = true then pos - 1 else pos) = p0 at hr
          generalize hQ : p0 + (((a ++ [d]).drop p0).takeWhile isDigit).length = Q at hr
          cases h2 : (a ++ [d])[Q]? with
          | none => rw [h2] at hr; cases hr
          | some e =>
            rw [h2, Option.bind_some] at hr
            have hcase : Q < a.length ∧ ¬ (e = 0x23 ∨ e = 0x43) ∨ Q = a.length ∧ (e = 0x23 ∨ e = 0x43) := by
              have hlt := (List.getElem?_eq_some_iff.mp h2).1
              rw [List.length_append, List.length_singleton] at hlt
              by_cases hq : Q < a.length
              · rw [List.getElem?_append_left hq] at h2
                have := ha e (List.mem_of_getElem? h2)
                exact Or.inl ⟨hq, not_or.mpr this⟩
              · have hq : Q = a.length := by omega
                subst hq
                rw [List.getElem?_append_right (Nat.le_refl _), Nat.sub_self] at h2
                simp only [List.getElem?_cons_zero, Option.some.injEq] at h2
                exact Or.inr ⟨by omega, h2 ▸ hd⟩
            rcases hcase with ⟨c1, c2⟩ | ⟨c1, c2⟩
            · rw [if_neg c2] at hr
              split at hr
              · cases hr
              · simp only [Option.some.injEq, Next.field.injEq] at hr; omega
            · rw [if_pos c2] at hr
              split at hr
              · cases hr
              · simp only [Option.some.injEq, Next.field.injEq] at hr; omega

/-! ## Text -/

/-- Characters, as the receiver decodes them. -/
def decodeAll (cs : List Byte) (x : Nat × List Byte) : Option (Nat × List Byte) :=
  cs.foldlM (fun (x : Nat × List Byte) c => (decodeBaudot x.1 (c &&& 0x1F)).bind fun r => some (r.1, x.2 ++ if r.2 ≠ 0 then [r.2] else [])) x

theorem baudot_char : ∀ ch : Byte, ch.toNat < 128 → ∀ sh : Fin 3, ∀ rs : Fin 2, (sh.val = 2 ∨ sh.val = rs.val) →
    ((encodeBaudot sh.val ch).any fun p => decide (p.1 ≤ 2) &&
       (decodeAll p.2 (rs.val, [])).any fun x => decide (x.1 ≤ 1 ∧ (p.1 = 2 ∨ p.1 = x.1) ∧ x.2 = (baudot ch).toList)) = true := by
  decide +kernel

theorem store_flat {s : Rx} (h : s.msg.length < 256) (o : Byte) : ∃ s', ((if o ≠ 0 then s.store o else some s).bind fun s =>
      if s.msg.length ≥ 256 then some { s.give s.msg with msg := [] } else some s) = some s' ∧ s'.shift = s.shift ∧ s'.msg.length < 256
      ∧ s'.out.flatten ++ s'.msg = s.out.flatten ++ s.msg ++ (if o ≠ 0 then [o] else [])
      ∧ (s.msg.length + (if o ≠ 0 then [o] else []).length < 256 → s'.out = s.out ∧ s'.msg = s.msg ++ (if o ≠ 0 then [o] else [])) := by
  by_cases ho : o ≠ 0
  · rw [if_pos ho, if_pos ho]
    unfold Rx.store
    rw [if_pos h, Option.bind_some]
    by_cases hl : (s.msg ++ [o]).length ≥ 256
    · rw [if_pos hl]
      exact ⟨_, rfl, rfl, by simp [Rx.give], by simp [Rx.give], fun h => absurd hl (by rw [List.length_append]; omega)⟩
    · rw [if_neg hl]
      exact ⟨_, rfl, rfl, by simp only; omega, by simp, fun _ => ⟨rfl, rfl⟩⟩
  · rw [if_neg ho, if_neg ho, Option.bind_some, if_neg (by omega)]
    exact ⟨s, rfl, rfl, h, by simp, fun _ => ⟨rfl, by simp⟩⟩

theorem decodeAll_append (a b : List Byte) (x : Nat × List Byte) : decodeAll (a ++ b) x = (decodeAll a x).bind (decodeAll b) := by
  unfold decodeAll
  rw [List.foldlM_append]
  rfl

theorem decodeAll_acc : ∀ (cs : List Byte) (sh : Nat) (p : List Byte), decodeAll cs (sh, p) = (decodeAll cs (sh, [])).map fun x => (x.1, p ++ x.2)
  | [], sh, p => by simp [decodeAll]
  | c :: cs, sh, p => by
    have h := fun y => decodeAll_acc cs y
    unfold decodeAll at h ⊢
    simp only [List.foldlM_cons, Option.bind_eq_bind]
    cases decodeBaudot sh (c &&& 0x1F) with
    | none => rfl
    | some r =>
      simp only [Option.bind_some]
      rw [h r.1 (p ++ _), h r.1 ([] ++ _)]
      simp only [Option.map_map, List.nil_append]
      congr 1
      funext x
      simp

theorem putChars_decode : ∀ (cs : List Byte) {s : Rx} {x : Nat × List Byte}, s.msg.length < 256 → decodeAll cs (s.shift, []) = some x →
    ∃ s', putChars s cs = some s' ∧ s'.shift = x.1 ∧ s'.msg.length < 256 ∧ s'.out.flatten ++ s'.msg = s.out.flatten ++ s.msg ++ x.2
      ∧ (s.msg.length + x.2.length < 256 → s'.out = s.out ∧ s'.msg = s.msg ++ x.2)
  | [], s, x, h, hx => by
    simp only [decodeAll, List.foldlM_nil, Option.pure_def, Option.some.injEq] at hx
    subst hx
    exact ⟨s, rfl, rfl, h, by simp, fun _ => ⟨rfl, by simp⟩⟩
  | c :: cs, s, x, h, hx => by
    have hx' : (decodeBaudot s.shift (c &&& 0x1F)).bind (fun r => decodeAll cs (r.1, [] ++ if r.2 ≠ 0 then [r.2] else [])) = some x := by
      rw [← hx]
      unfold decodeAll
      simp only [List.foldlM_cons, Option.bind_eq_bind]
      cases decodeBaudot s.shift (c &&& 0x1F) <;> rfl
    cases hd : decodeBaudot s.shift (c &&& 0x1F) with
    | none => rw [hd] at hx'; cases hx'
    | some r =>
      rw [hd, Option.bind_some, decodeAll_acc] at hx'
      cases hy : decodeAll cs (r.1, []) with
      | none => rw [hy] at hx'; cases hx'
      | some y =>
        rw [hy, Option.map_some, Option.some.injEq] at hx'
        obtain ⟨s1, k1, k2, k3, k4, k5⟩ := store_flat (s := { s with shift := r.1 }) h r.2
        obtain ⟨s2, m1, m2, m3, m4, m5⟩ := putChars_decode cs (s := s1) (x := y) k3 (by rw [k2]; exact hy)
        refine ⟨s2, ?_, by rw [m2, ← hx'], m3, ?_, ?_⟩
        · rw [putChars]
          unfold putChar
          rw [hd, Option.bind_some]
          simp only
          rw [k1, Option.bind_some, m1]
        · rw [m4, k4, ← hx']
          simp
        · intro hl
          subst hx'
          rw [List.nil_append, List.length_append] at hl
          obtain ⟨e1, e2⟩ := k5 (by simp only; omega)
          obtain ⟨e3, e4⟩ := m5 (by rw [e2, List.length_append]; simp only; omega)
          exact ⟨by rw [e3, e1], by rw [e4, e2]; simp⟩

theorem addText_decode : ∀ (text : List Byte) {sh rs : Nat}, (∀ o ∈ text, o.toNat < 128) → sh ≤ 2 → rs ≤ 1 → (sh = 2 ∨ sh = rs) →
    ∃ sh' rs' cs, addText sh text = some (sh', cs) ∧ sh' ≤ 2 ∧ rs' ≤ 1 ∧ (sh' = 2 ∨ sh' = rs') ∧ decodeAll cs (rs, []) = some (rs', text.filterMap baudot)
  | [], sh, rs, _, h1, h2, h3 => ⟨sh, rs, [], rfl, h1, h2, h3, rfl⟩
  | ch :: text, sh, rs, h, h1, h2, h3 => by
    have hc := baudot_char ch (h ch (by simp)) ⟨sh, by omega⟩ ⟨rs, by omega⟩ h3
    simp only at hc
    cases he : encodeBaudot sh ch with
    | none => rw [he] at hc; cases hc
    | some r =>
      rw [he, Option.any_some, Bool.and_eq_true, decide_eq_true_eq] at hc
      obtain ⟨hc1, hc2⟩ := hc
      rw [Option.any_eq_true] at hc2
      obtain ⟨x, hx, hy⟩ := hc2
      simp only [decide_eq_true_eq] at hy
      obtain ⟨hy1, hy2, hy3⟩ := hy
      obtain ⟨sh', rs', cs, k1, k2, k3, k4, k5⟩ := addText_decode text (sh := r.1) (rs := x.1) (fun o ho => h o (by simp [ho])) hc1 hy1 hy2
      refine ⟨sh', rs', r.2 ++ cs, ?_, k2, k3, k4, ?_⟩
      · rw [addText, he, Option.bind_some, k1]; rfl
      · rw [decodeAll_append, show decodeAll r.2 (rs, []) = some x from hx, Option.bind_some, decodeAll_acc, k5, Option.map_some, hy3]
        cases hb : baudot ch with
        | none => rw [List.filterMap_cons_none hb]; rfl
        | some b => rw [List.filterMap_cons_some hb]; rfl

theorem drainChars_all : ∀ (k : Nat) {t : Tx} {m : List Byte}, t.on = true → t.byteNo + m.length = t.msgLen → (∀ i, i < m.length → t.msg[t.byteNo + i]? = m[i]?) →
    m.length < k → drainChars k t = some (m ++ [0x1F], { t with byteNo := t.msgLen, on := false, msgLen := 0 })
  | k + 1, t, [], h1, h2, _, _ => by
    simp only [List.length_nil, Nat.add_zero] at h2
    rw [drainChars]
    unfold getChar
    rw [if_neg (by omega), if_pos h1, Option.bind_some, if_neg (by simp)]
    simp [h2]
  | k + 1, t, c :: m, h1, h2, h3, hk => by
    simp only [List.length_cons] at h2 hk
    rw [drainChars]
    unfold getChar
    rw [if_pos (by omega)]
    have h0 := h3 0 (by simp)
    rw [Nat.add_zero] at h0
    rw [h0]
    simp only [List.getElem?_cons_zero, Option.bind_some]
    rw [if_pos h1, drainChars_all k (t := { t with byteNo := t.byteNo + 1 }) (m := m) h1 (by simp only; omega) (by
      intro i hi
      simp only
      have := h3 (i + 1) (by simp; omega)
      rw [List.getElem?_cons_succ] at this
      rw [← this]
      congr 1
      omega) (by omega)]
    rfl

end Adsi
