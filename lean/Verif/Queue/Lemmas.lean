import Verif.Queue.Model
import Verif.Queue.Spec

set_option linter.unusedSimpArgs false

namespace Queue
open C

/-- `n` bytes of the ring `m` starting at `o`. -/
def win (m : Mem) (o n : Nat) : List UInt8 := (m.drop o ++ m.take o).take n

theorem win_getElem? (m : Mem) (o n i : Nat) (ho : o ≤ m.length) :
    (win m o n)[i]? = if i < n ∧ i < m.length then
      (if o + i < m.length then m[o + i]? else m[o + i - m.length]?) else none := by
  unfold win
  simp only [List.getElem?_take, List.getElem?_append, List.getElem?_drop, List.length_drop]
  grind

theorem win_length (m : Mem) (o n : Nat) (ho : o ≤ m.length) (hn : n ≤ m.length) :
    (win m o n).length = n := by
  simp [win]; omega

theorem win_take (m : Mem) (o n k : Nat) : (win m o n).take k = win m o (min k n) := by
  simp [win, List.take_take]

theorem win_drop (m : Mem) (o n k : Nat) (ho : o < m.length) (hk : k ≤ n) (hn : n < m.length) :
    (win m o n).drop k =
      win m (if o + k ≥ m.length then o + k - m.length else o + k) (n - k) := by
  apply List.ext_getElem?; intro i
  rw [List.getElem?_drop, win_getElem? _ _ _ _ (by omega), win_getElem? _ _ _ _ (by split <;> omega)]
  grind

/-- Writing bytes in the ring, at `p`. -/
def ringStore (m : Mem) (p : Nat) (src : List UInt8) : Mem :=
  if p + src.length ≤ m.length then m.take p ++ src ++ m.drop (p + src.length)
  else src.drop (m.length - p) ++ (m.take p).drop (src.length - (m.length - p)) ++ src.take (m.length - p)

theorem ringStore_length (m : Mem) (p : Nat) (src : List UInt8) (hp : p < m.length)
    (hs : src.length ≤ m.length) : (ringStore m p src).length = m.length := by
  unfold ringStore; split <;> simp <;> omega

theorem ringStore_getElem? (m : Mem) (p : Nat) (src : List UInt8) (hp : p < m.length)
    (hs : src.length ≤ m.length) (i : Nat) :
    (ringStore m p src)[i]? =
      if p ≤ i ∧ i < p + src.length ∧ i < m.length then src[i - p]?
      else if i < p ∧ i + m.length < p + src.length then src[i + m.length - p]?
      else m[i]? := by
  unfold ringStore
  split
  · simp only [List.getElem?_append, List.getElem?_take, List.getElem?_drop, List.length_take,
      List.length_append]
    grind
  · simp only [List.getElem?_append, List.getElem?_take, List.getElem?_drop, List.length_take,
      List.length_append, List.length_drop]
    grind

theorem ringStore_win (m : Mem) (o n : Nat) (src : List UInt8) (ho : o < m.length)
    (hs : n + src.length < m.length) :
    win (ringStore m (if o + n ≥ m.length then o + n - m.length else o + n) src) o (n + src.length)
      = win m o n ++ src := by
  have hl := ringStore_length m (if o + n ≥ m.length then o + n - m.length else o + n) src
    (by split <;> omega) (by omega)
  apply List.ext_getElem?; intro i
  rw [win_getElem? _ _ _ _ (by omega), hl, List.getElem?_append, win_length _ _ _ (by omega) (by omega),
    win_getElem? _ _ _ _ (by omega),
    ringStore_getElem? _ _ _ (by split <;> omega) (by omega),
    ringStore_getElem? _ _ _ (by split <;> omega) (by omega)]
  grind

theorem store_ok {m : Mem} {off : Int} {src : List UInt8} (h0 : 0 ≤ off)
    (h2 : off + src.length ≤ m.length) :
    ∃ m', store m off src = some m' ∧ m'.length = m.length ∧
      ∀ i, m'[i]? = if off.toNat ≤ i ∧ i < off.toNat + src.length then src[i - off.toNat]? else m[i]? := by
  refine ⟨_, by simp only [store]; rw [if_pos ⟨h0, h2⟩], ?_, ?_⟩
  · simp; omega
  · intro i
    simp only [List.getElem?_append, List.getElem?_take, List.getElem?_drop, List.length_take,
      List.length_append]
    grind

/-- Representation invariant. -/
structure Inv (s : State) : Prop where
  i0 : 0 ≤ s.iptr
  i1 : s.iptr < s.len
  o0 : 0 ≤ s.optr
  o1 : s.optr < s.len
  dl : (s.data.length : Int) = s.len

/-- The bytes held. -/
def items (s : State) : List UInt8 := win s.data s.optr.toNat (contents s).toNat

theorem slice_some {m : Mem} {off n : Int} (h0 : 0 ≤ off) (h1 : 0 ≤ n)
    (h2 : off + n ≤ m.length) : slice m off n = some ((m.drop off.toNat).take n.toNat) := by
  simp [slice, h0, h1, h2]

theorem store_some {m : Mem} {off : Int} {src : List UInt8} (h0 : 0 ≤ off)
    (h2 : off + src.length ≤ m.length) :
    store m off src = some (m.take off.toNat ++ src ++ m.drop (off.toNat + src.length)) := by
  simp [store, h0, h2]

theorem contents_nonneg {s : State} (h : Inv s) : 0 ≤ contents s := by
  obtain ⟨i0, i1, o0, o1, dl⟩ := h
  simp only [contents]; split <;> omega

theorem contents_lt {s : State} (h : Inv s) : contents s < s.len := by
  obtain ⟨i0, i1, o0, o1, dl⟩ := h
  simp only [contents]; split <;> omega

theorem items_length {s : State} (h : Inv s) : (items s).length = (contents s).toNat := by
  have := contents_lt h
  have := contents_nonneg h
  obtain ⟨i0, i1, o0, o1, dl⟩ := h
  apply win_length <;> omega

theorem contents_eq {s : State} (h : Inv s) : contents s = (items s).length := by
  have := items_length h; have := contents_nonneg h; omega

theorem freeSpace_eq {s : State} (h : Inv s) :
    freeSpace s = s.len - 1 - (items s).length := by
  rw [← contents_eq h]
  obtain ⟨i0, i1, o0, o1, dl⟩ := h
  simp only [freeSpace, contents]; split <;> split <;> omega

/-- The state after taking `n` bytes out. -/
def adv (s : State) (n : Nat) : State :=
  { s with optr := if s.optr + n ≥ s.len then s.optr + n - s.len else s.optr + n }

theorem adv_spec {s : State} (h : Inv s) {n : Nat} (hn : n ≤ (items s).length) :
    Inv (adv s n) ∧ items (adv s n) = (items s).drop n := by
  have hlt := contents_lt h
  have hce := contents_eq h
  obtain ⟨i0, i1, o0, o1, dl⟩ := h
  have hc : contents (adv s n) = contents s - n := by
    simp only [contents, adv] at hce ⊢
    split at hce <;> (repeat' split) <;> omega
  constructor
  · constructor <;> (try simp only [adv]) <;> (try split) <;> (try omega)
  · unfold items
    rw [hc, win_drop _ _ _ _ (by omega) (by omega) (by omega)]
    show win s.data (adv s n).optr.toNat _ = _
    have e1 : (adv s n).optr.toNat = if s.optr.toNat + n ≥ s.data.length then
        s.optr.toNat + n - s.data.length else s.optr.toNat + n := by
      simp only [adv]; split <;> split <;> omega
    have e2 : (contents s - n).toNat = (contents s).toNat - n := by omega
    rw [e1, e2]

theorem take_ring (m : Mem) (o n : Nat) (ho : o ≤ m.length) (hn : n ≤ m.length) :
    win m o n = if m.length - o < n then m.drop o ++ m.take (n - (m.length - o))
      else (m.drop o).take n := by
  apply List.ext_getElem?; intro i
  rw [win_getElem? _ _ _ _ ho]
  by_cases hc : m.length - o < n
  · rw [if_pos hc]
    simp only [List.getElem?_append, List.getElem?_take, List.getElem?_drop, List.length_drop]; grind
  · rw [if_neg hc]
    simp only [List.getElem?_take, List.getElem?_drop]; grind

theorem read_spec {s : State} (h : Inv s) (n : Nat) (b : Bool) :
    read s b n =
      if s.readAtomic ∧ (items s).length < n then some ((-1 : Int), [], s)
      else some ((((items s).take n).length : Int), if b then (items s).take n else [],
        adv s ((items s).take n).length) := by
  have hlt := contents_lt h
  have hce := contents_eq h
  have hil := items_length h
  have hi := h
  obtain ⟨i0, i1, o0, o1, dl⟩ := h
  unfold read
  have e : (if s.iptr - s.optr < 0 then s.iptr - s.optr + s.len else s.iptr - s.optr)
      = (items s).length := by rw [← hce]; rfl
  simp only [e]
  by_cases ha : s.readAtomic ∧ (items s).length < n
  · rw [if_pos (by constructor; omega; exact ha.1), if_pos ha]
  rw [if_neg (by intro hh; exact ha ⟨hh.2, by omega⟩), if_neg ha]
  have er : (if ((items s).length : Int) < n then ((items s).length : Int) else n)
      = ((items s).take n).length := by
    simp only [List.length_take]; split <;> omega
  simp only [er]
  generalize hk : ((items s).take n).length = k at *
  have hkle : k ≤ (items s).length := by rw [← hk]; simp; omega
  have hdata : (items s).take n = win s.data s.optr.toNat k := by
    unfold items; rw [win_take]; congr 1; rw [← hil]; simp at hk; omega
  rw [hdata]
  by_cases h0 : k = 0
  · rw [if_pos (by omega)]
    have e1 : win s.data s.optr.toNat k = [] := by simp [win, h0]
    have e2 : adv s k = s := by
      cases s; simp only [adv, State.mk.injEq, true_and, and_true] at *; split <;> omega
    rw [e1, e2, h0]; simp
  rw [if_neg (by omega)]
  rw [take_ring _ _ _ (by omega) (by omega)]
  have hnw : s.optr ≤ s.iptr → s.optr + k ≤ s.iptr := by
    simp only [contents] at hce; split at hce <;> omega
  clear er hk hdata
  by_cases hw : s.iptr < s.optr ∧ s.len - s.optr < k
  · rw [if_pos hw, slice_some (by omega) (by omega) (by omega),
      slice_some (by omega) (by omega) (by omega)]
    have hp : s.data.length - s.optr.toNat < k := by omega
    rw [if_pos hp]
    have e1 : (List.drop s.optr.toNat s.data).take (s.len - s.optr).toNat = List.drop s.optr.toNat s.data := by
      apply List.take_of_length_le; simp; omega
    have e2 : ((k:Int) - (s.len - s.optr)).toNat = k - (s.data.length - s.optr.toNat) := by omega
    have e3 : (if s.optr + (k:Int) ≥ s.len then s.optr + (k:Int) - s.len else s.optr + k)
      = (k:Int) - (s.len - s.optr) := by split <;> omega
    simp only [adv, e3]
    cases b <;> simp [e1, e2]
  · rw [if_neg hw, slice_some (by omega) (by omega) (by omega)]
    have hp : ¬ s.data.length - s.optr.toNat < k := by omega
    rw [if_neg hp]
    have e3 : (if s.optr + (k:Int) ≥ s.len then s.optr + (k:Int) - s.len else s.optr + k)
      = if s.optr + (k:Int) ≥ s.len then 0 else s.optr + k := by split <;> omega
    simp only [adv, e3]
    cases b <;> simp

theorem view_spec (s : State) (n : Int) (b : Bool) :
    view s b n = (read s b n).map fun r => (r.1, r.2.1) := by
  unfold view read
  simp only []
  generalize hx : (if s.iptr - s.optr < 0 then s.iptr - s.optr + s.len else s.iptr - s.optr) = x
  generalize hy : (if x < n then x else n) = y
  split
  · rfl
  split
  · rfl
  split
  · cases b
    · rfl
    · cases slice s.data s.optr (s.len - s.optr) <;> cases slice s.data 0 (y - (s.len - s.optr)) <;> rfl
  · cases b
    · rfl
    · cases slice s.data s.optr y <;> rfl

theorem ringStore_one {m : Mem} {p : Int} {src : List UInt8} (hp : 0 ≤ p) (h : p + src.length ≤ m.length) :
    store m p src = some (ringStore m p.toNat src) := by
  rw [store_some hp h]; unfold ringStore; rw [if_pos (by omega)]

/-- A write which wraps, as two stores. -/
theorem ringStore_two {m : Mem} {p : Int} {src : List UInt8} (hp : 0 ≤ p)
    (hpl : p < m.length) (h : ¬ p + src.length ≤ m.length) (h2 : src.length ≤ m.length) :
    (store m p (src.take (m.length - p.toNat))).bind
      (fun d => store d 0 (src.drop (m.length - p.toNat))) = some (ringStore m p.toNat src) := by
  rw [store_some hp (by simp; omega)]
  simp only [Option.bind_some]
  rw [store_some (by omega) (by simp; omega)]
  congr 1
  apply List.ext_getElem?; intro i
  rw [ringStore_getElem? _ _ _ (by omega) h2]
  simp only [List.getElem?_append, List.getElem?_take, List.getElem?_drop, List.length_take,
      List.length_append, List.length_drop]
  grind

/-- The state after putting bytes in. -/
def put (s : State) (src : List UInt8) : State :=
  { s with data := ringStore s.data s.iptr.toNat src,
           iptr := if s.iptr + src.length ≥ s.len then s.iptr + src.length - s.len else s.iptr + src.length }

theorem put_spec {s : State} (h : Inv s) {src : List UInt8}
    (hn : (items s).length + src.length < s.len) :
    Inv (put s src) ∧ items (put s src) = items s ++ src := by
  have hlt := contents_lt h
  have hce := contents_eq h
  have hil := items_length h
  obtain ⟨i0, i1, o0, o1, dl⟩ := h
  have hc : contents (put s src) = contents s + src.length := by
    simp only [contents, put] at hce ⊢
    split at hce <;> (repeat' split) <;> omega
  have hl := ringStore_length s.data s.iptr.toNat src (by omega) (by omega)
  constructor
  · constructor <;> simp only [put] <;> (try split) <;> omega
  · unfold items
    rw [← ringStore_win _ _ _ _ (by omega) (by omega), hc]
    have e1 : (contents s + src.length).toNat = (contents s).toNat + src.length := by omega
    have e2 : s.iptr.toNat = if s.optr.toNat + (contents s).toNat ≥ s.data.length then
        s.optr.toNat + (contents s).toNat - s.data.length else s.optr.toNat + (contents s).toNat := by
      clear hc
      simp only [contents] at *
      split at hce <;> (repeat' split) <;> omega
    rw [e1, ← e2]; rfl

theorem slice_take {m : Mem} {n : Nat} (h : n ≤ m.length) : slice m 0 n = some (m.take n) := by
  rw [slice_some (by omega) (by omega) (by omega)]; simp

theorem write_spec {s : State} (h : Inv s) (buf : Mem) :
    write s buf buf.length =
      if s.writeAtomic ∧ s.len - 1 - (items s).length < buf.length then some ((-1 : Int), s)
      else
        let acc := buf.take (s.len - 1 - (items s).length).toNat
        some ((acc.length : Int), put s acc) := by
  have hfs := freeSpace_eq h
  have hlt := contents_lt h
  have hce := contents_eq h
  obtain ⟨i0, i1, o0, o1, dl⟩ := h
  unfold write
  have e : (if s.optr - s.iptr - 1 < 0 then s.optr - s.iptr - 1 + s.len else s.optr - s.iptr - 1)
      = s.len - 1 - (items s).length := by rw [← hfs]; rfl
  simp only [e]
  generalize hf : s.len - 1 - ((items s).length : Int) = f at *
  by_cases ha : s.writeAtomic ∧ f < buf.length
  · rw [if_pos ha.symm, if_pos ha]
  rw [if_neg (fun hh => ha hh.symm), if_neg ha]
  generalize hacc : buf.take f.toNat = acc
  have hal : (acc.length : Int) = if f < buf.length then f else buf.length := by
    rw [← hacc]; simp; split <;> omega
  simp only [← hal]
  by_cases h0 : acc.length = 0
  · rw [if_pos (by omega)]
    have e1 : acc = [] := List.length_eq_zero_iff.mp h0
    have e2 : put s acc = s := by
      cases s; simp only [put, e1, ringStore, State.mk.injEq, true_and] at *
      simp only [List.length_nil] at *
      constructor
      · split <;> omega
      · simp only [Nat.add_zero]; rw [if_pos (by omega)]; simp
    rw [e2, h0]; simp
  rw [if_neg (by omega)]
  have hab : acc.length ≤ buf.length := by rw [← hacc]; simp; omega
  have hba : buf.take acc.length = acc := by rw [← hacc]; simp [List.take_eq_take_iff]
  have hfle : (acc.length : Int) ≤ f := by split at hal <;> omega
  have hnw : s.iptr < s.optr → s.iptr + acc.length < s.optr := by
    simp only [freeSpace] at hfs; split at hfs <;> omega
  by_cases hw : s.iptr < s.optr ∨ s.len - s.iptr ≥ acc.length
  · rw [if_pos hw, slice_take hab, hba]
    simp only [Option.bind_eq_bind, Option.bind_some]
    rw [ringStore_one i0 (by omega)]
    have e3 : (if s.iptr + (acc.length:Int) ≥ s.len then s.iptr + (acc.length:Int) - s.len else s.iptr + acc.length)
      = if s.iptr + (acc.length:Int) ≥ s.len then 0 else s.iptr + acc.length := by split <;> omega
    simp only [put, e3]; rfl
  · rw [if_neg hw]
    have e1 : slice buf 0 (s.len - s.iptr) = some (acc.take (s.data.length - s.iptr.toNat)) := by
      rw [slice_some (by omega) (by omega) (by omega), ← hba, List.take_take]
      simp; omega
    have e2 : slice buf (s.len - s.iptr) (acc.length - (s.len - s.iptr))
        = some (acc.drop (s.data.length - s.iptr.toNat)) := by
      rw [slice_some (by omega) (by omega) (by omega)]
      have x1 : (s.len - s.iptr).toNat = s.data.length - s.iptr.toNat := by omega
      have x2 : ((acc.length:Int) - (s.len - s.iptr)).toNat = acc.length - (s.data.length - s.iptr.toNat) := by omega
      rw [x1, x2, ← List.drop_take, hba]
    rw [e1, e2]
    have e4 := ringStore_two (m := s.data) (p := s.iptr) (src := acc) i0 (by omega) (by omega) (by omega)
    have e3 : (if s.iptr + (acc.length:Int) ≥ s.len then s.iptr + (acc.length:Int) - s.len else s.iptr + acc.length)
      = acc.length - (s.len - s.iptr) := by split <;> omega
    simp only [put, e3]
    simp only [Option.bind_eq_bind, Option.bind_some]
    generalize ringStore s.data s.iptr.toNat acc = R at *
    cases hst : store s.data s.iptr (acc.take (s.data.length - s.iptr.toNat)) with
    | none => rw [hst] at e4; cases e4
    | some d => rw [hst] at e4; simp only [Option.bind_some] at e4 ⊢; rw [e4]; rfl

theorem readByte_spec {s : State} (h : Inv s) :
    readByte s = match items s with
      | [] => some ((-1 : Int), s)
      | b :: _ => some ((b.toNat : Int), adv s 1) := by
  have hlt := contents_lt h
  have hce := contents_eq h
  have hil := items_length h
  obtain ⟨i0, i1, o0, o1, dl⟩ := h
  unfold readByte
  have e : (if s.iptr - s.optr < 0 then s.iptr - s.optr + s.len else s.iptr - s.optr)
      = (items s).length := by rw [← hce]; rfl
  simp only [e]
  cases hit : items s with
  | nil => simp
  | cons b rest =>
    have hb : s.data[s.optr.toNat]? = some b := by
      have : (items s)[0]? = some b := by rw [hit]; rfl
      unfold items at this
      rw [win_getElem? _ _ _ _ (by omega)] at this
      rw [hit, List.length_cons] at hil
      rw [if_pos (by omega), if_pos (by omega)] at this
      simpa using this
    rw [if_neg (by simp; omega)]
    simp only [load1, if_pos o0, hb, Option.bind_eq_bind, Option.bind_some, adv]
    have e3 : (if s.optr + ((1:Nat):Int) ≥ s.len then s.optr + ((1:Nat):Int) - s.len else s.optr + ((1:Nat):Int))
      = if s.optr + 1 ≥ s.len then 0 else s.optr + 1 := by split <;> split <;> omega
    rw [e3]; rfl

theorem writeByte_spec {s : State} (h : Inv s) (b : UInt8) :
    writeByte s b =
      if (items s).length < s.len - 1 then some ((1 : Int), put s [b])
      else some (if s.writeAtomic then (-1 : Int) else 0, s) := by
  have hfs := freeSpace_eq h
  obtain ⟨i0, i1, o0, o1, dl⟩ := h
  unfold writeByte
  have e : (if s.optr - s.iptr - 1 < 0 then s.optr - s.iptr - 1 + s.len else s.optr - s.iptr - 1)
      = s.len - 1 - (items s).length := by rw [← hfs]; rfl
  simp only [e]
  by_cases hc : ((items s).length : Int) < s.len - 1
  · rw [if_neg (by omega), if_pos hc]
    unfold store1
    rw [ringStore_one i0 (by simp; omega)]
    simp only [Option.bind_eq_bind, Option.bind_some, put]
    have e3 : (if s.iptr + (([b] : List UInt8).length:Int) ≥ s.len then s.iptr + (([b] : List UInt8).length:Int) - s.len else s.iptr + (([b] : List UInt8).length:Int))
      = if s.iptr + 1 ≥ s.len then 0 else s.iptr + 1 := by simp; split <;> omega
    rw [e3]; rfl
  · rw [if_pos (by omega), if_neg hc]
    split <;> rfl

theorem flush_spec {s : State} (h : Inv s) : Inv (flush s) ∧ items (flush s) = [] := by
  obtain ⟨i0, i1, o0, o1, dl⟩ := h
  refine ⟨⟨i0, i1, i0, i1, dl⟩, ?_⟩
  simp [items, flush, contents, win]

theorem init_spec (cap flags : Nat) (garbage : Mem) (hg : garbage.length = cap + 1) :
    Inv (init cap flags garbage) ∧ items (init cap flags garbage) = [] := by
  refine ⟨⟨?_, ?_, ?_, ?_, ?_⟩, ?_⟩ <;> simp [init, items, contents, win, hg] <;> omega

theorem bind_eq_some_map {α β : Type} {o : Option α} {x : α} (h : o = some x) (f : α → Option β) :
    o.bind f = f x := by rw [h]; rfl

theorem toU16_of_lt {n : Nat} (h : n < 65536) : toU16 n = n := by
  unfold toU16; omega

theorem u16_roundtrip {n : Nat} (h : n < 65536) : u16val (u16bytes n) = n := by
  simp [u16val, u16bytes]; omega

theorem u16bytes_length (n : Nat) : (u16bytes n).length = 2 := rfl

/-- `queue_write_msg` puts the two length bytes and the body as one write. -/
theorem writeMsg_spec {s : State} (h : Inv s) (buf : Mem) :
    writeMsg s buf buf.length =
      if s.len - 1 - (items s).length < buf.length + 2 then some ((-1 : Int), s)
      else some ((buf.length : Int), put s (u16bytes (toU16 buf.length) ++ buf)) := by
  have hfs := freeSpace_eq h
  have hlt := contents_lt h
  have hce := contents_eq h
  obtain ⟨i0, i1, o0, o1, dl⟩ := h
  unfold writeMsg
  have e : (if s.optr - s.iptr - 1 < 0 then s.optr - s.iptr - 1 + s.len else s.optr - s.iptr - 1)
      = s.len - 1 - (items s).length := by rw [← hfs]; rfl
  simp only [e]
  generalize hf : s.len - 1 - ((items s).length : Int) = f at *
  by_cases ha : f < (buf.length : Int) + 2
  · rw [if_pos ha, if_pos ha]
  rw [if_neg ha, if_neg ha]
  generalize hlx : u16bytes (toU16 buf.length) = lx
  have hlxl : lx.length = 2 := by rw [← hlx]; rfl
  have hnw : s.iptr < s.optr → s.iptr + buf.length + 2 < s.optr := by
    simp only [freeSpace] at hfs; split at hfs <;> omega
  have hapl : (lx ++ buf).length = 2 + buf.length := by simp [hlxl]
  by_cases hw : s.iptr < s.optr ∨ s.len - s.iptr ≥ (buf.length : Int) + 2
  · rw [if_pos hw, slice_take (Nat.le_refl _), List.take_length]
    simp only [Option.bind_eq_bind, Option.bind_some]
    obtain ⟨m1, q1, l1, g1⟩ := store_ok (m := s.data) (src := lx) i0 (by omega)
    obtain ⟨m2, q2, l2, g2⟩ := store_ok (m := m1) (off := s.iptr + 2) (src := buf) (by omega) (by omega)
    rw [q1, Option.bind_some, q2]
    simp only [Option.bind_some, put]
    have e3 : (if s.iptr + ((lx ++ buf).length:Int) ≥ s.len then s.iptr + ((lx ++ buf).length:Int) - s.len else s.iptr + (lx ++ buf).length)
      = if s.iptr + ((buf.length : Int) + 2) ≥ s.len then 0 else s.iptr + (buf.length + 2) := by
        rw [hapl]; split <;> split <;> omega
    rw [e3]
    have e4 : ∀ (x : Mem), x = ringStore s.data s.iptr.toNat (lx ++ buf) →
      (pure ((buf.length : Int), ({ flags := s.flags, len := s.len, iptr := if s.iptr + ((buf.length:Int) + 2) ≥ s.len then 0 else s.iptr + (buf.length + 2), optr := s.optr, data := x } : State)) : Option _)
      = some ((buf.length : Int), { flags := s.flags, len := s.len, iptr := if s.iptr + ((buf.length:Int) + 2) ≥ s.len then 0 else s.iptr + (buf.length + 2), optr := s.optr, data := ringStore s.data s.iptr.toNat (lx ++ buf) }) := by
      rintro x rfl; rfl
    apply e4
    apply List.ext_getElem?; intro i
    rw [ringStore_getElem? _ _ _ (by omega) (by omega)]
    have hfit : buf.length + 3 ≤ s.data.length := by omega
    clear e4 e3 hfs hce hlt e hf ha hlx
    simp only [List.getElem?_append, List.length_append, *]
    repeat' split
    all_goals first | rfl | (exfalso; omega) | (congr 1; omega) | grind
  rw [if_neg hw]
  have e3 : (if s.iptr + ((lx ++ buf).length:Int) ≥ s.len then s.iptr + ((lx ++ buf).length:Int) - s.len else s.iptr + (lx ++ buf).length)
      = (buf.length : Int) + 2 - (s.len - s.iptr) := by
        rw [hapl]; split <;> omega
  simp only [put, e3]
  have e4 : ∀ (x : Mem), x = ringStore s.data s.iptr.toNat (lx ++ buf) →
      (pure ((buf.length : Int), ({ flags := s.flags, len := s.len, iptr := (buf.length : Int) + 2 - (s.len - s.iptr), optr := s.optr, data := x } : State)) : Option _)
      = some ((buf.length : Int), { flags := s.flags, len := s.len, iptr := (buf.length : Int) + 2 - (s.len - s.iptr), optr := s.optr, data := ringStore s.data s.iptr.toNat (lx ++ buf) }) := by
      rintro x rfl; rfl
  by_cases h2 : s.len - s.iptr ≥ 2
  · rw [if_pos h2, slice_some (by omega) (by omega) (by omega),
      slice_some (by omega) (by omega) (by omega)]
    simp only [Option.bind_eq_bind, Option.bind_some]
    obtain ⟨m1, q1, l1, g1⟩ := store_ok (m := s.data) (src := lx) i0 (by omega)
    rw [q1, Option.bind_some]
    rw [show Int.toNat 0 = 0 from rfl, List.drop_zero]
    generalize hb1 : List.take (s.len - s.iptr - 2).toNat buf = b1
    generalize hb2 : List.take _ (List.drop _ buf) = b2
    have hb1l : b1.length = (s.len - s.iptr - 2).toNat := by rw [← hb1]; simp; omega
    have hb2l : b2.length = (buf.length + 2 - (s.len - s.iptr)).toNat := by rw [← hb2]; simp; omega
    have hb1g : ∀ i, b1[i]? = if i < b1.length then buf[i]? else none := by
      intro i; rw [hb1l, ← hb1, List.getElem?_take]
    have hb2g : ∀ i, b2[i]? = if i < b2.length then buf[b1.length + i]? else none := by
      intro i; rw [hb2l, ← hb2, List.getElem?_take, List.getElem?_drop, hb1l]
    obtain ⟨m2, q2, l2, g2⟩ := store_ok (m := m1) (off := s.iptr + 2) (src := b1) (by omega) (by omega)
    rw [q2, Option.bind_some]
    obtain ⟨m3, q3, l3, g3⟩ := store_ok (m := m2) (off := 0) (src := b2) (by omega) (by omega)
    rw [q3]
    simp only [Option.bind_some]
    apply e4
    apply List.ext_getElem?; intro i
    rw [ringStore_getElem? _ _ _ (by omega) (by omega)]
    have hfit : buf.length + 3 ≤ s.data.length := by omega
    clear e4 e3 hfs hce hlt e hf ha hlx
    simp only [List.getElem?_append, List.length_append, *]
    repeat' split
    all_goals first | rfl | (exfalso; omega) | (congr 1; omega) | grind
  · rw [if_neg h2, slice_take (Nat.le_refl _), slice_some (by omega) (by omega) (by omega),
      slice_some (by omega) (by omega) (by omega), List.take_length]
    simp only [Option.bind_eq_bind, Option.bind_some]
    generalize hb1 : List.take _ (List.drop _ lx) = b1
    generalize hb2 : List.take _ (List.drop _ lx) = b2
    have hb1l : b1.length = 1 := by rw [← hb1]; simp; omega
    have hb2l : b2.length = 1 := by rw [← hb2]; simp; omega
    have hb1g : b1[0]? = lx[0]? := by
      rw [← hb1, List.getElem?_take]; simp; omega
    have hb2g : b2[0]? = lx[1]? := by
      rw [← hb2, List.getElem?_take, if_pos (by omega), List.getElem?_drop]; congr 1; omega
    obtain ⟨m1, q1, l1, g1⟩ := store_ok (m := s.data) (src := b1) i0 (by omega)
    rw [q1, Option.bind_some]
    obtain ⟨m2, q2, l2, g2⟩ := store_ok (m := m1) (off := 0) (src := b2) (by omega) (by omega)
    rw [q2, Option.bind_some]
    obtain ⟨m3, q3, l3, g3⟩ := store_ok (m := m2) (off := 2 - (s.len - s.iptr)) (src := buf) (by omega) (by omega)
    rw [q3]
    simp only [Option.bind_some]
    apply e4
    apply List.ext_getElem?; intro i
    rw [ringStore_getElem? _ _ _ (by omega) (by omega)]
    have hfit : buf.length + 3 ≤ s.data.length := by omega
    clear e4 e3 hfs hce hlt e hf ha hlx
    simp only [List.getElem?_append, List.length_append, *]
    repeat' split
    all_goals first | rfl | (exfalso; omega) | (congr 1; omega) | grind

end Queue
