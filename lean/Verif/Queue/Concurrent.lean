import Verif.Queue.Lemmas

/-!
# Model of `src/queue.c` under concurrency

One thread calls `queue_write`, another calls `queue_read`, on the same queue, without
locks. Each shared access is a step of its own: the loads of `iptr` and `optr`, each byte
moved by a `memcpy` (in any order) and the final store of the pointer. The threads'
steps are interleaved arbitrarily, by an arbitrary list of `Label`s.

Simplification: memory is sequentially consistent (the fields are `volatile`, and on
x86 this is what the hardware provides for this access pattern; weaker memory
models are not modelled).
-/

set_option linter.unusedVariables false

namespace Queue
open C

/-- The bytes moved by `memcpy(&data[off], src, src.length)`. -/
def storesFor (off : Int) (src : List UInt8) : List (Int × UInt8) :=
  (List.range src.length).map fun i => (off + (i : Nat), src.getD i 0)

/-- What `queue_write` has decided once it has its two snapshots. -/
inductive WPlan
  | done (ret : Int)
  | copy (stores : List (Int × UInt8)) (newIptr : Int) (ret : Int)
deriving Repr

/-- src/queue.c:235-273 as a function of the snapshots. The copies of a `memcpy` are
listed, not done. A negative byte count cannot arise for `len ≥ 0`, so `take`/`drop` by
`toNat` is the `memcpy` source. -/
def writePlan (writeAtomic : Bool) (slen iptr optr : Int) (buf : List UInt8) : WPlan :=
  let len : Int := buf.length
  let rl0 := if optr - iptr - 1 < 0 then optr - iptr - 1 + slen else optr - iptr - 1
  if rl0 < len ∧ writeAtomic then .done (-1)
  else
    let realLen := if rl0 < len then rl0 else len
    if realLen = 0 then .done 0
    else
      let toEnd := slen - iptr
      if iptr < optr ∨ toEnd ≥ realLen then
        let newIptr := iptr + realLen
        .copy (storesFor iptr (buf.take realLen.toNat)) (if newIptr ≥ slen then 0 else newIptr) realLen
      else
        .copy (storesFor iptr (buf.take toEnd.toNat) ++
            storesFor 0 ((buf.drop toEnd.toNat).take (realLen - toEnd).toNat))
          (realLen - toEnd) realLen

/-- The loads of `memcpy(&buf[dst], &data[off], n)`: (place in the buffer, address). -/
def loadsFor (dst : Int) (off n : Int) : List (Nat × Int) :=
  (List.range n.toNat).map fun i => (dst.toNat + i, off + (i : Nat))

/-- What `queue_read` has decided once it has its two snapshots. -/
inductive RPlan
  | done (ret : Int)
  | copy (loads : List (Nat × Int)) (newOptr : Int) (ret : Int)
deriving Repr

/-- src/queue.c:150-194 as a function of the snapshots (`buf` not NULL). -/
def readPlan (readAtomic : Bool) (slen iptr optr : Int) (len : Nat) : RPlan :=
  let rl0 := if iptr - optr < 0 then iptr - optr + slen else iptr - optr
  if rl0 < len ∧ readAtomic then .done (-1)
  else
    let realLen := if rl0 < len then rl0 else len
    if realLen = 0 then .done 0
    else
      let toEnd := slen - optr
      if iptr < optr ∧ toEnd < realLen then
        .copy (loadsFor 0 optr toEnd ++ loadsFor toEnd 0 (realLen - toEnd)) (realLen - toEnd) realLen
      else
        let newOptr := optr + realLen
        .copy (loadsFor 0 optr realLen) (if newOptr ≥ slen then 0 else newOptr) realLen

/-- Where the writing thread is in `queue_write`. -/
inductive WPc
  | idle
  /-- `iptr` has been read (src/queue.c:232) -/
  | gotI (buf : List UInt8) (iptr : Int)
  /-- `optr` has been read (src/queue.c:233); copying, then storing `iptr` -/
  | copying (buf : List UInt8) (stores : List (Int × UInt8)) (newIptr ret : Int)

/-- Where the reading thread is in `queue_read`. -/
inductive RPc
  | idle
  /-- `iptr` has been read (src/queue.c:148) -/
  | gotI (len : Nat) (iptr : Int)
  /-- `optr` has been read (src/queue.c:149); copying, then storing `optr` -/
  | copying (loads : List (Nat × Int)) (out : Nat → UInt8) (newOptr ret : Int)

/-- The whole system. `accepted` and `delivered` record what the calls have returned so
far; `ub` records an access outside the buffer. -/
structure Config where
  q : State
  w : WPc := .idle
  r : RPc := .idle
  accepted : List UInt8 := []
  delivered : List UInt8 := []
  ub : Bool := false

/-- A scheduling decision. -/
inductive Label
  /-- the writer calls `queue_write(buf)` and reads `iptr` -/
  | wStart (buf : List UInt8)
  /-- the writer reads `optr` and decides -/
  | wPlan
  /-- the writer makes one of its pending byte copies -/
  | wCopy (k : Nat)
  /-- the writer stores `iptr` and returns -/
  | wCommit
  /-- the reader calls `queue_read(len)` and reads `iptr` -/
  | rStart (len : Nat)
  | rPlan
  | rCopy (k : Nat)
  | rCommit
deriving Repr

/-- One step. A label which is not enabled does nothing. -/
def exec (c : Config) : Label → Config
  | .wStart buf =>
    match c.w with
    | .idle => { c with w := .gotI buf c.q.iptr }
    | _ => c
  | .wPlan =>
    match c.w with
    | .gotI buf iptr =>
      match writePlan c.q.writeAtomic c.q.len iptr c.q.optr buf with
      | .done _ => { c with w := .idle }
      | .copy stores newIptr ret => { c with w := .copying buf stores newIptr ret }
    | _ => c
  | .wCopy k =>
    match c.w with
    | .copying buf stores newIptr ret =>
      match stores[k]? with
      | some (a, b) =>
        match store1 c.q.data a b with
        | some d => { c with q := { c.q with data := d },
                             w := .copying buf (stores.eraseIdx k) newIptr ret }
        | none => { c with ub := true }
      | none => c
    | _ => c
  | .wCommit =>
    match c.w with
    | .copying buf [] newIptr ret =>
      { c with q := { c.q with iptr := newIptr }, w := .idle,
               accepted := c.accepted ++ buf.take ret.toNat }
    | _ => c
  | .rStart len =>
    match c.r with
    | .idle => { c with r := .gotI len c.q.iptr }
    | _ => c
  | .rPlan =>
    match c.r with
    | .gotI len iptr =>
      match readPlan c.q.readAtomic c.q.len iptr c.q.optr len with
      | .done _ => { c with r := .idle }
      | .copy loads newOptr ret => { c with r := .copying loads (fun _ => 0) newOptr ret }
    | _ => c
  | .rCopy k =>
    match c.r with
    | .copying loads out newOptr ret =>
      match loads[k]? with
      | some (i, a) =>
        match load1 c.q.data a with
        | some b => { c with r := .copying (loads.eraseIdx k) (fun j => if j = i then b else out j) newOptr ret }
        | none => { c with ub := true }
      | none => c
    | _ => c
  | .rCommit =>
    match c.r with
    | .copying [] out newOptr ret =>
      { c with q := { c.q with optr := newOptr }, r := .idle,
               delivered := c.delivered ++ (List.range ret.toNat).map out }
    | _ => c

/-- Everything that happens under a schedule. -/
def execAll (c : Config) (ls : List Label) : Config := ls.foldl exec c

/-! ## Invariant -/

/-- Ring address `p + j`. -/
def wrap (len p : Int) (j : Nat) : Int := if p + j ≥ len then p + j - len else p + j

def WInv (s : State) : WPc → Prop
  | .idle => True
  | .gotI _ iptr => iptr = s.iptr
  | .copying buf stores newIptr ret =>
    ∃ src : List UInt8, src = buf.take ret.toNat ∧
      (items s).length + src.length < s.len ∧
      newIptr = wrap s.len s.iptr src.length ∧
      (∀ a b, (a, b) ∈ stores → ∃ j, a = wrap s.len s.iptr j ∧ src[j]? = some b) ∧
      (∀ j b, src[j]? = some b →
        s.data[(wrap s.len s.iptr j).toNat]? = some b ∨ (wrap s.len s.iptr j, b) ∈ stores)

def RInv (s : State) : RPc → Prop
  | .idle => True
  | .gotI _ iptr => ∃ m, m ≤ (items s).length ∧ iptr = wrap s.len s.optr m
  | .copying loads out newOptr ret =>
    ∃ n : Nat, ret = n ∧ n ≤ (items s).length ∧
      newOptr = wrap s.len s.optr n ∧
      (∀ k a, (k, a) ∈ loads → k < n ∧ a = wrap s.len s.optr k) ∧
      (∀ k, k < n → (items s)[k]? = some (out k) ∨ (k, wrap s.len s.optr k) ∈ loads)

structure CInv (cap : Nat) (c : Config) : Prop where
  inv : Inv c.q
  len : c.q.len = cap + 1
  w : WInv c.q c.w
  r : RInv c.q c.r
  log : c.delivered ++ items c.q = c.accepted
  safe : c.ub = false

theorem contents_wrap {s : State} (h : Inv s) : s.iptr = wrap s.len s.optr (items s).length := by
  have hc := contents_eq h
  obtain ⟨i0, i1, o0, o1, dl⟩ := h
  simp only [contents] at hc
  unfold wrap
  split at hc <;> split <;> omega

theorem wrap_range {len p : Int} {j : Nat} (h0 : 0 ≤ p) (h1 : p < len) (hj : j < len) :
    0 ≤ wrap len p j ∧ wrap len p j < len := by
  unfold wrap; split <;> omega

theorem wrap_inj {len p : Int} {i j : Nat} (h0 : 0 ≤ p) (h1 : p < len) (hi : i < len) (hj : j < len)
    (h : wrap len p i = wrap len p j) : i = j := by
  unfold wrap at h; split at h <;> split at h <;> omega

theorem wrap_add {len p : Int} {i j : Nat} (h0 : 0 ≤ p) (h1 : p < len) (hij : i + j < 2 * len)
    (hi : i < len) (hj : j < len) (hs : p + i + j < 2 * len) :
    wrap len (wrap len p i) j = wrap len p (i + j) := by
  unfold wrap; simp; split <;> split <;> split <;> omega

theorem items_getElem? {s : State} (h : Inv s) {k : Nat} (hk : k < (items s).length) :
    (items s)[k]? = s.data[(wrap s.len s.optr k).toNat]? := by
  have hl := contents_lt h
  have hi := items_length h
  obtain ⟨i0, i1, o0, o1, dl⟩ := h
  unfold items
  rw [win_getElem? _ _ _ _ (by omega), if_pos (by omega)]
  unfold wrap
  split <;> split <;> first | rfl | (congr 1; omega) | omega

theorem store1_ok {m : Mem} {a : Int} {b : UInt8} (h0 : 0 ≤ a) (h1 : a < m.length) :
    ∃ d, store1 m a b = some d ∧ d.length = m.length ∧
      ∀ i, d[i]? = if i = a.toNat then some b else m[i]? := by
  obtain ⟨d, e, l, g⟩ := store_ok (m := m) (off := a) (src := [b]) h0 (by simp; omega)
  refine ⟨d, e, l, fun i => ?_⟩
  rw [g i]
  by_cases hi : i = a.toNat
  · subst hi; simp
  · rw [if_neg hi, if_neg (by simp; omega)]

theorem mem_storesFor {off : Int} {src : List UInt8} {a : Int} {b : UInt8} :
    (a, b) ∈ storesFor off src ↔ ∃ j : Nat, a = off + j ∧ src[j]? = some b := by
  simp only [storesFor, List.mem_map, List.mem_range, Prod.mk.injEq]
  constructor
  · rintro ⟨i, hi, h1, h2⟩
    refine ⟨i, h1.symm, ?_⟩
    rw [List.getElem?_eq_getElem hi, ← h2]; simp [List.getD, hi]
  · rintro ⟨j, h1, h2⟩
    have hj : j < src.length := by
      rcases Nat.lt_or_ge j src.length with h | h
      · exact h
      · rw [List.getElem?_eq_none h] at h2; cases h2
    refine ⟨j, hj, h1.symm, ?_⟩
    simp [List.getD, h2]

theorem mem_loadsFor {dst off n : Int} {k : Nat} {a : Int} :
    (k, a) ∈ loadsFor dst off n ↔ ∃ j : Nat, j < n ∧ k = dst.toNat + j ∧ a = off + j := by
  simp only [loadsFor, List.mem_map, List.mem_range, Prod.mk.injEq]
  constructor
  · rintro ⟨i, hi, h1, h2⟩; exact ⟨i, by omega, h1.symm, h2.symm⟩
  · rintro ⟨j, hj, h1, h2⟩; exact ⟨j, by omega, h1.symm, h2.symm⟩

/-- A store at a free place leaves the contents alone. -/
theorem items_store {s : State} (h : Inv s) {j : Nat} {b : UInt8}
    (hj : (items s).length + j < s.len) :
    ∃ d, store1 s.data (wrap s.len s.iptr j) b = some d ∧ Inv { s with data := d } ∧
      items { s with data := d } = items s ∧
      ∀ i, d[i]? = if i = (wrap s.len s.iptr j).toNat then some b else s.data[i]? := by
  have hr := wrap_range h.i0 h.i1 (j := j) (by omega)
  obtain ⟨d, e, l, g⟩ := store1_ok (m := s.data) (b := b) hr.1 (by rw [h.dl]; exact hr.2)
  have hinv : Inv { s with data := d } := ⟨h.i0, h.i1, h.o0, h.o1, by show (d.length : Int) = _; rw [l]; exact h.dl⟩
  refine ⟨d, e, hinv, ?_, g⟩
  have hlen : (items { s with data := d }).length = (items s).length := by
    rw [items_length hinv, items_length h]; rfl
  apply List.ext_getElem?; intro i
  by_cases hi : i < (items s).length
  · rw [items_getElem? hinv (by rw [hlen]; exact hi), items_getElem? h hi]
    show d[(wrap s.len s.optr i).toNat]? = _
    rw [g, if_neg]
    have hw := contents_wrap h
    have r1 := wrap_range h.o0 h.o1 (j := i) (by omega)
    intro heq
    have : wrap s.len s.optr i = wrap s.len s.iptr j := by omega
    obtain ⟨i0, i1, o0, o1, dl⟩ := h
    rw [hw] at this
    unfold wrap at this
    (repeat' split at this) <;> omega
  · rw [List.getElem?_eq_none (by omega), List.getElem?_eq_none (by omega)]

theorem mem_eraseIdx {α : Type} {l : List α} {k : Nat} {x y : α} (hx : l[k]? = some x)
    (hy : y ∈ l) : y = x ∨ y ∈ l.eraseIdx k := by
  rw [List.mem_iff_getElem?] at hy
  obtain ⟨i, hi⟩ := hy
  by_cases h : i = k
  · subst h; rw [hx] at hi; exact Or.inl (Option.some.inj hi).symm
  · right
    rw [List.mem_eraseIdx_iff_getElem?]
    exact ⟨i, h, hi⟩

/-- The writer's decision puts exactly the accepted bytes in the free space. -/
theorem writePlan_spec {s : State} (h : Inv s) (buf : List UInt8) {stores newIptr ret}
    (hcopy : writePlan s.writeAtomic s.len s.iptr s.optr buf = .copy stores newIptr ret) :
    WInv s (.copying buf stores newIptr ret) := by
  have hfs := freeSpace_eq h
  have hlt := contents_lt h
  have hce := contents_eq h
  obtain ⟨i0, i1, o0, o1, dl⟩ := h
  unfold writePlan at hcopy
  have e : (if s.optr - s.iptr - 1 < 0 then s.optr - s.iptr - 1 + s.len else s.optr - s.iptr - 1)
      = s.len - 1 - (items s).length := by rw [← hfs]; rfl
  simp only [e] at hcopy
  generalize hf : s.len - 1 - ((items s).length : Int) = f at *
  by_cases c1 : f < (buf.length : Int) ∧ s.writeAtomic
  · rw [if_pos c1] at hcopy; cases hcopy
  rw [if_neg c1] at hcopy
  generalize hrl : (if f < (buf.length : Int) then f else (buf.length : Int)) = rl at hcopy
  by_cases c2 : rl = 0
  · rw [if_pos c2] at hcopy; cases hcopy
  rw [if_neg c2] at hcopy
  have hnn : 0 ≤ f := by omega
  have hrl2 : rl ≤ f ∧ rl ≤ buf.length ∧ 0 < rl := by split at hrl <;> omega
  have hnw : s.iptr < s.optr → s.iptr + rl < s.optr := by
    simp only [freeSpace] at hfs; split at hfs <;> omega
  have hsl : (buf.take rl.toNat).length = rl.toNat := by simp; omega
  have hg : ∀ j b, (buf.take rl.toNat)[j]? = some b → j < rl.toNat ∧ buf[j]? = some b := by
    intro j b hj
    rw [List.getElem?_take] at hj
    split at hj
    · exact ⟨by assumption, hj⟩
    · cases hj
  by_cases c3 : s.iptr < s.optr ∨ s.len - s.iptr ≥ rl
  · rw [if_pos c3] at hcopy
    injection hcopy with h1 h2 h3
    subst h1 h2 h3
    refine ⟨_, rfl, by rw [hsl]; omega, ?_, ?_, ?_⟩
    · rw [hsl]; unfold wrap; split <;> split <;> omega
    · intro a b hab
      obtain ⟨j, hj1, hj2⟩ := mem_storesFor.mp hab
      refine ⟨j, ?_, hj2⟩
      have := (hg j b hj2).1
      unfold wrap; split <;> omega
    · intro j b hj
      right
      rw [mem_storesFor]
      refine ⟨j, ?_, hj⟩
      have := (hg j b hj).1
      unfold wrap; split <;> omega
  · rw [if_neg c3] at hcopy
    injection hcopy with h1 h2 h3
    subst h1 h2 h3
    refine ⟨_, rfl, by rw [hsl]; omega, ?_, ?_, ?_⟩
    · rw [hsl]; unfold wrap; split <;> omega
    · intro a b hab
      rcases List.mem_append.mp hab with hab | hab
      · obtain ⟨j, hj1, hj2⟩ := mem_storesFor.mp hab
        rw [List.getElem?_take] at hj2
        split at hj2
        · refine ⟨j, by unfold wrap; split <;> omega, ?_⟩
          rw [List.getElem?_take, if_pos (by omega)]; exact hj2
        · cases hj2
      · obtain ⟨j, hj1, hj2⟩ := mem_storesFor.mp hab
        rw [List.getElem?_take] at hj2
        split at hj2
        · refine ⟨(s.len - s.iptr).toNat + j, by unfold wrap; split <;> omega, ?_⟩
          rw [List.getElem?_take, if_pos (by omega)]; rwa [List.getElem?_drop] at hj2
        · cases hj2
    · intro j b hj
      right
      obtain ⟨hj1, hj2⟩ := hg j b hj
      rw [List.mem_append, mem_storesFor, mem_storesFor]
      by_cases hw : j < (s.len - s.iptr).toNat
      · left
        refine ⟨j, by unfold wrap; split <;> omega, ?_⟩
        rw [List.getElem?_take, if_pos hw]; exact hj2
      · right
        refine ⟨j - (s.len - s.iptr).toNat, by unfold wrap; split <;> omega, ?_⟩
        rw [List.getElem?_take, if_pos (by omega), List.getElem?_drop]
        rw [← hj2]; congr 1; omega

/-- The reader's decision copies exactly the first bytes of the contents, even if its
snapshot of `iptr` is old. -/
theorem readPlan_spec {s : State} (h : Inv s) (len m : Nat) (hm : m ≤ (items s).length)
    {loads newOptr ret}
    (hcopy : readPlan s.readAtomic s.len (wrap s.len s.optr m) s.optr len = .copy loads newOptr ret)
    (out : Nat → UInt8) : RInv s (.copying loads out newOptr ret) := by
  have hlt := contents_lt h
  have hce := contents_eq h
  obtain ⟨i0, i1, o0, o1, dl⟩ := h
  unfold readPlan at hcopy
  generalize hip : wrap s.len s.optr m = ip at *
  have e : (if ip - s.optr < 0 then ip - s.optr + s.len else ip - s.optr) = m := by
    rw [← hip]; unfold wrap; split <;> split <;> omega
  simp only [e] at hcopy
  by_cases c1 : (m : Int) < (len : Int) ∧ s.readAtomic
  · rw [if_pos c1] at hcopy; cases hcopy
  rw [if_neg c1] at hcopy
  generalize hrl : (if (m : Int) < (len : Int) then (m : Int) else (len : Int)) = rl at hcopy
  by_cases c2 : rl = 0
  · rw [if_pos c2] at hcopy; cases hcopy
  rw [if_neg c2] at hcopy
  have hrl2 : rl ≤ m ∧ 0 < rl := by split at hrl <;> omega
  have hnw : s.optr ≤ ip → s.optr + rl ≤ ip := by
    rw [← hip]; unfold wrap; split <;> omega
  have hnw2 : ip < s.len := by rw [← hip]; unfold wrap; split <;> omega
  by_cases c3 : ip < s.optr ∧ s.len - s.optr < rl
  · rw [if_pos c3] at hcopy
    injection hcopy with h1 h2 h3
    subst h1 h2 h3
    refine ⟨rl.toNat, by omega, by omega, ?_, ?_, ?_⟩
    · unfold wrap; split <;> omega
    · intro k a hka
      rw [List.mem_append, mem_loadsFor, mem_loadsFor] at hka
      rcases hka with ⟨j, hj, hk, ha⟩ | ⟨j, hj, hk, ha⟩
      · simp at hk; refine ⟨by omega, ?_⟩; unfold wrap; split <;> omega
      · refine ⟨by omega, ?_⟩; unfold wrap; split <;> omega
    · intro k hk
      right
      rw [List.mem_append, mem_loadsFor, mem_loadsFor]
      by_cases hw : k < s.len - s.optr
      · left; exact ⟨k, hw, by simp, by unfold wrap; split <;> omega⟩
      · right; exact ⟨k - (s.len - s.optr).toNat, by omega, by omega, by unfold wrap; split <;> omega⟩
  · rw [if_neg c3] at hcopy
    injection hcopy with h1 h2 h3
    subst h1 h2 h3
    refine ⟨rl.toNat, by omega, by omega, ?_, ?_, ?_⟩
    · unfold wrap; split <;> split <;> omega
    · intro k a hka
      rw [mem_loadsFor] at hka
      obtain ⟨j, hj, hk, ha⟩ := hka
      simp at hk
      refine ⟨by omega, ?_⟩; unfold wrap; split <;> omega
    · intro k hk
      right
      rw [mem_loadsFor]
      exact ⟨k, by omega, by simp, by unfold wrap; split <;> omega⟩

theorem exec_wCommit_put {s : State} (h : Inv s) {src : List UInt8}
    (hfit : (items s).length + src.length < s.len)
    (hall : ∀ j b, src[j]? = some b → s.data[(wrap s.len s.iptr j).toNat]? = some b) :
    { s with iptr := wrap s.len s.iptr src.length } = put s src := by
  have hlt := contents_lt h
  have hce := contents_eq h
  have hr : ringStore s.data s.iptr.toNat src = s.data := by
    obtain ⟨i0, i1, o0, o1, dl⟩ := h
    apply List.ext_getElem?; intro i
    rw [ringStore_getElem? _ _ _ (by omega) (by omega)]
    split
    · rename_i hc
      obtain ⟨b, hb⟩ : ∃ b, src[i - s.iptr.toNat]? = some b := ⟨_, List.getElem?_eq_getElem (by omega)⟩
      have := hall _ _ hb
      rw [hb, ← this]; congr 1
      unfold wrap; split <;> omega
    · split
      · rename_i hc
        obtain ⟨b, hb⟩ : ∃ b, src[i + s.data.length - s.iptr.toNat]? = some b :=
          ⟨_, List.getElem?_eq_getElem (by omega)⟩
        have := hall _ _ hb
        rw [hb, ← this]; congr 1
        unfold wrap; split <;> omega
      · rfl
  unfold put
  rw [hr]; rfl

theorem exec_inv {cap : Nat} {c : Config} (h : CInv cap c) (l : Label) : CInv cap (exec c l) := by
  obtain ⟨inv, len, hw, hr, log, safe⟩ := h
  cases l with
  | wStart buf =>
    simp only [exec]
    split
    · exact ⟨inv, len, rfl, hr, log, safe⟩
    · exact ⟨inv, len, hw, hr, log, safe⟩
  | wPlan =>
    simp only [exec]
    split
    · rename_i buf iptr heq
      rw [heq] at hw
      have hi : iptr = c.q.iptr := hw
      subst hi
      split
      · exact ⟨inv, len, trivial, hr, log, safe⟩
      · rename_i hc
        exact ⟨inv, len, writePlan_spec inv buf hc, hr, log, safe⟩
    · exact ⟨inv, len, hw, hr, log, safe⟩
  | wCopy k =>
    simp only [exec]
    split
    · rename_i buf stores newIptr ret heq
      split
      · rename_i a b hk
        rw [heq] at hw
        obtain ⟨src, hsrc, hfit, hnew, hst, hdone⟩ := hw
        obtain ⟨j, hj, hb⟩ := hst a b (List.mem_of_getElem? hk)
        have hjl : j < src.length := by
          rcases Nat.lt_or_ge j src.length with h | h
          · exact h
          · rw [List.getElem?_eq_none h] at hb; cases hb
        obtain ⟨d, hd, hinv, hit, hg⟩ := items_store inv (j := j) (b := b) (by omega)
        rw [hj, hd]
        refine ⟨hinv, len, ?_, ?_, by simpa [hit] using log, safe⟩
        · refine ⟨src, hsrc, by simpa [hit] using hfit, hnew, ?_, ?_⟩
          · intro a' b' hab
            exact hst a' b' (List.mem_of_mem_eraseIdx hab)
          · intro j' b' hj'
            have hj'l : j' < src.length := by
              rcases Nat.lt_or_ge j' src.length with h | h
              · exact h
              · rw [List.getElem?_eq_none h] at hj'; cases hj'
            show d[(wrap c.q.len c.q.iptr j').toNat]? = some b' ∨ _
            rw [hg]
            by_cases hsame : (wrap c.q.len c.q.iptr j').toNat = (wrap c.q.len c.q.iptr j).toNat
            · rw [if_pos hsame]
              left
              have r1 := wrap_range inv.i0 inv.i1 (j := j) (by omega)
              have r2 := wrap_range inv.i0 inv.i1 (j := j') (by omega)
              have : j' = j := wrap_inj inv.i0 inv.i1 (by omega) (by omega) (by omega)
              subst this; rw [← hj', ← hb]
            · rw [if_neg hsame]
              rcases hdone j' b' hj' with h1 | h1
              · exact Or.inl h1
              · rcases mem_eraseIdx hk h1 with h2 | h2
                · exfalso; apply hsame
                  rw [hj] at h2
                  injection h2 with h3 h4; rw [h3]
                · exact Or.inr h2
        · cases hrc : c.r with
          | idle => trivial
          | gotI l ip =>
            rw [hrc] at hr
            obtain ⟨m, hm, hi⟩ := hr
            exact ⟨m, by simpa [hit] using hm, hi⟩
          | copying loads out no rt =>
            rw [hrc] at hr
            obtain ⟨n, h1, h2, h3, h4, h5⟩ := hr
            exact ⟨n, h1, by simpa [hit] using h2, h3, h4, by simpa [hit] using h5⟩
      · exact ⟨inv, len, hw, hr, log, safe⟩
    · exact ⟨inv, len, hw, hr, log, safe⟩
  | wCommit =>
    simp only [exec]
    split
    · rename_i buf newIptr ret heq
      rw [heq] at hw
      obtain ⟨src, hsrc, hfit, hnew, hst, hdone⟩ := hw
      have hall : ∀ j b, src[j]? = some b → c.q.data[(wrap c.q.len c.q.iptr j).toNat]? = some b := by
        intro j b hj
        rcases hdone j b hj with h1 | h1
        · exact h1
        · cases h1
      have hput := exec_wCommit_put inv hfit hall
      obtain ⟨p1, p2⟩ := put_spec inv hfit
      rw [← hsrc, hnew, hput]
      refine ⟨p1, len, trivial, ?_, by show c.delivered ++ items (put c.q src) = _; rw [p2, ← log]; simp, safe⟩
      cases hrc : c.r with
      | idle => trivial
      | gotI l ip =>
        rw [hrc] at hr
        obtain ⟨m, hm, hi⟩ := hr
        exact ⟨m, by show m ≤ (items (put c.q src)).length; rw [p2]; simp; omega, hi⟩
      | copying loads out no rt =>
        rw [hrc] at hr
        obtain ⟨n, h1, h2, h3, h4, h5⟩ := hr
        refine ⟨n, h1, by show n ≤ (items (put c.q src)).length; rw [p2]; simp; omega, h3, h4, ?_⟩
        intro k hk
        show (items (put c.q src))[k]? = _ ∨ _
        rw [p2, List.getElem?_append_left (by omega)]
        exact h5 k hk
    · exact ⟨inv, len, hw, hr, log, safe⟩
  | rStart n =>
    simp only [exec]
    split
    · exact ⟨inv, len, hw, ⟨_, Nat.le_refl _, contents_wrap inv⟩, log, safe⟩
    · exact ⟨inv, len, hw, hr, log, safe⟩
  | rPlan =>
    simp only [exec]
    split
    · rename_i n iptr heq
      rw [heq] at hr
      obtain ⟨m, hm, hi⟩ := hr
      subst hi
      split
      · exact ⟨inv, len, hw, trivial, log, safe⟩
      · rename_i hc
        exact ⟨inv, len, hw, readPlan_spec inv n m hm hc _, log, safe⟩
    · exact ⟨inv, len, hw, hr, log, safe⟩
  | rCopy k =>
    simp only [exec]
    split
    · rename_i loads out newOptr ret heq
      split
      · rename_i i a hk
        rw [heq] at hr
        obtain ⟨n, h1, h2, h3, h4, h5⟩ := hr
        obtain ⟨hin, ha⟩ := h4 i a (List.mem_of_getElem? hk)
        have hl := contents_lt inv
        have hce := contents_eq inv
        have r1 := wrap_range inv.o0 inv.o1 (j := i) (by omega)
        have hget := items_getElem? inv (k := i) (by omega)
        obtain ⟨b, hb⟩ : ∃ b, (items c.q)[i]? = some b := ⟨_, List.getElem?_eq_getElem (by omega)⟩
        have hld : load1 c.q.data a = some b := by
          unfold load1; rw [ha, if_pos r1.1, ← hget, hb]
        rw [hld]
        refine ⟨inv, len, hw, ⟨n, h1, h2, h3, ?_, ?_⟩, log, safe⟩
        · intro k' a' hka; exact h4 k' a' (List.mem_of_mem_eraseIdx hka)
        · intro k' hk'
          by_cases hs : k' = i
          · subst hs; simp [hb]
          · simp only [if_neg hs]
            rcases h5 k' hk' with h6 | h6
            · exact Or.inl h6
            · rcases mem_eraseIdx hk h6 with h7 | h7
              · injection h7 with h8 h9; exact absurd h8 hs
              · exact Or.inr h7
      · exact ⟨inv, len, hw, hr, log, safe⟩
    · exact ⟨inv, len, hw, hr, log, safe⟩
  | rCommit =>
    simp only [exec]
    split
    · rename_i out newOptr ret heq
      rw [heq] at hr
      obtain ⟨n, h1, h2, h3, h4, h5⟩ := hr
      have hadv : ({ c.q with optr := newOptr } : State) = adv c.q n := by
        rw [h3]; rfl
      obtain ⟨a1, a2⟩ := adv_spec inv h2
      rw [hadv]
      have hout : (List.range n).map out = (items c.q).take n := by
        apply List.ext_getElem?; intro i
        by_cases hi : i < n
        · rw [List.getElem?_take, if_pos hi]
          rcases h5 i hi with h6 | h6
          · rw [h6]; simp [hi]
          · cases h6
        · rw [List.getElem?_eq_none (by simp; omega), List.getElem?_eq_none (by simp; omega)]
      refine ⟨a1, len, ?_, trivial, ?_, safe⟩
      · cases hwc : c.w with
        | idle => trivial
        | gotI b ip => rw [hwc] at hw; exact hw
        | copying buf stores ni rt =>
          rw [hwc] at hw
          obtain ⟨src, hsrc, hfit, hnew, hst, hdone⟩ := hw
          refine ⟨src, hsrc, ?_, hnew, hst, hdone⟩
          show ((items (adv c.q n)).length : Int) + src.length < c.q.len
          rw [a2, List.length_drop]; omega
      · show (c.delivered ++ (List.range ret.toNat).map out) ++ items (adv c.q n) = c.accepted
        rw [h1, a2, Int.toNat_natCast, hout, List.append_assoc, List.take_append_drop, log]
    · exact ⟨inv, len, hw, hr, log, safe⟩

theorem execAll_inv {cap : Nat} (ls : List Label) : ∀ {c : Config}, CInv cap c → CInv cap (execAll c ls) := by
  induction ls with
  | nil => intro c h; exact h
  | cons l ls ih => intro c h; exact ih (exec_inv h l)

/-- **C02.** For every interleaving of one writer and one reader: no access outside the
buffer, what has been delivered followed by what is in the queue is exactly what has been
accepted, so the reader sees a prefix of the accepted bytes and none of them is ever
overwritten before it is read. -/
theorem spsc_lock_free (cap flags : Nat) (garbage : Mem) (hg : garbage.length = cap + 1)
    (schedule : List Label) :
    let c := execAll { q := init cap flags garbage } schedule
    c.ub = false ∧ c.delivered <+: c.accepted ∧ c.delivered ++ items c.q = c.accepted ∧
      c.accepted.length ≤ c.delivered.length + cap := by
  obtain ⟨hi, he⟩ := init_spec cap flags garbage hg
  have h0 : CInv cap { q := init cap flags garbage } :=
    ⟨hi, rfl, trivial, trivial, by simpa using he, rfl⟩
  have h := execAll_inv schedule h0
  have hl := contents_lt h.inv
  have hc := contents_eq h.inv
  have hn := h.len
  refine ⟨h.safe, ⟨_, h.log⟩, h.log, ?_⟩
  rw [← h.log, List.length_append]
  omega

/-! ## The two models agree

Run without interference, the steps of the concurrent model do what the sequential model
of `Model.lean` does. -/

theorem storesFor_cons (off : Int) (b : UInt8) (src : List UInt8) :
    storesFor off (b :: src) = (off, b) :: storesFor (off + 1) src := by
  simp only [storesFor, List.length_cons, List.range_succ_eq_map, List.map_cons, List.map_map]
  congr 1
  · simp
  · apply List.map_congr_left
    intro i _
    simp; omega

theorem store_cons {m : Mem} {off : Int} {b : UInt8} {src : List UInt8} (h0 : 0 ≤ off)
    (h : off + (b :: src).length ≤ m.length) :
    store m off (b :: src) = (store1 m off b).bind fun d => store d (off + 1) src := by
  simp only [List.length_cons] at h
  obtain ⟨d1, e1, l1, g1⟩ := store_ok (m := m) (src := b :: src) h0 (by simp; omega)
  obtain ⟨d2, e2, l2, g2⟩ := store1_ok (m := m) (b := b) h0 (by omega)
  obtain ⟨d3, e3, l3, g3⟩ := store_ok (m := d2) (off := off + 1) (src := src) (by omega) (by omega)
  rw [e1, e2, Option.bind_some, e3]
  congr 1
  apply List.ext_getElem?; intro i
  rw [g1, g3, g2]
  simp only [List.length_cons]
  by_cases c1 : i = off.toNat
  · subst c1
    rw [if_pos (by omega), if_neg (by omega), if_pos rfl]; simp
  · by_cases c2 : off.toNat ≤ i ∧ i < off.toNat + (src.length + 1)
    · rw [if_pos c2, if_pos (by omega)]
      obtain ⟨k, hk⟩ : ∃ k, i - off.toNat = k + 1 := ⟨i - off.toNat - 1, by omega⟩
      rw [hk, List.getElem?_cons_succ]; congr 1; omega
    · rw [if_neg c2, if_neg (by omega), if_neg c1]

/-- Doing all the stores, in order. -/
def doStores (m : Mem) (st : List (Int × UInt8)) : Option Mem :=
  st.foldlM (fun d ab => store1 d ab.1 ab.2) m

theorem doStores_storesFor (src : List UInt8) : ∀ {m : Mem} {off : Int}, 0 ≤ off →
    off + src.length ≤ m.length → doStores m (storesFor off src) = store m off src := by
  induction src with
  | nil =>
    intro m off h0 h
    rw [store_some h0 h]; simp [doStores, storesFor]
  | cons b src ih =>
    intro m off h0 h
    rw [store_cons h0 h, storesFor_cons]
    simp only [List.length_cons] at h
    obtain ⟨d2, e2, l2, g2⟩ := store1_ok (m := m) (b := b) h0 (by omega)
    rw [e2, Option.bind_some, ← ih (by omega) (by omega)]
    simp only [doStores, List.foldlM_cons, e2]; rfl

theorem doStores_append (m : Mem) (a b : List (Int × UInt8)) :
    doStores m (a ++ b) = (doStores m a).bind fun d => doStores d b := by
  simp [doStores, List.foldlM_append]

/-- `queue_write` of the sequential model is the plan of the concurrent model, carried out. -/
theorem write_eq_plan {s : State} (h : Inv s) (buf : List UInt8) :
    write s buf buf.length =
      match writePlan s.writeAtomic s.len s.iptr s.optr buf with
      | .done ret => some (ret, s)
      | .copy stores newIptr ret =>
        (doStores s.data stores).map fun d => (ret, { s with data := d, iptr := newIptr }) := by
  have hfs := freeSpace_eq h
  have hlt := contents_lt h
  have hce := contents_eq h
  obtain ⟨i0, i1, o0, o1, dl⟩ := h
  unfold write writePlan
  have e : (if s.optr - s.iptr - 1 < 0 then s.optr - s.iptr - 1 + s.len else s.optr - s.iptr - 1)
      = s.len - 1 - (items s).length := by rw [← hfs]; rfl
  simp only [e]
  generalize hf : s.len - 1 - ((items s).length : Int) = f at *
  by_cases c1 : f < (buf.length : Int) ∧ s.writeAtomic
  · rw [if_pos c1, if_pos c1]
  rw [if_neg c1, if_neg c1]
  generalize hrl : (if f < (buf.length : Int) then f else (buf.length : Int)) = rl
  by_cases c2 : rl = 0
  · rw [if_pos c2, if_pos c2]
  rw [if_neg c2, if_neg c2]
  have hnn : 0 ≤ f := by omega
  have hrl2 : rl ≤ f ∧ rl ≤ buf.length ∧ 0 < rl := by split at hrl <;> omega
  have hnw : s.iptr < s.optr → s.iptr + rl < s.optr := by
    simp only [freeSpace] at hfs; split at hfs <;> omega
  by_cases c3 : s.iptr < s.optr ∨ s.len - s.iptr ≥ rl
  · rw [if_pos c3, if_pos c3, slice_some (by omega) (by omega) (by omega)]
    simp only [Option.bind_eq_bind, Option.bind_some]
    rw [doStores_storesFor _ i0 (by simp; omega)]
    simp only [Int.toNat_zero, List.drop_zero]
    cases store s.data s.iptr (List.take rl.toNat buf) <;> rfl
  · rw [if_neg c3, if_neg c3, slice_some (by omega) (by omega) (by omega),
      slice_some (by omega) (by omega) (by omega)]
    simp only [Option.bind_eq_bind, Option.bind_some, doStores_append]
    rw [doStores_storesFor _ i0 (by simp; omega)]
    simp only [Int.toNat_zero, List.drop_zero]
    obtain ⟨d, e1, l1, g1⟩ := store_ok (m := s.data) (src := buf.take (s.len - s.iptr).toNat) i0
      (by simp; omega)
    rw [e1, Option.bind_some, Option.bind_some, doStores_storesFor _ (by omega) (by simp; omega)]
    cases store d 0 (List.take (rl - (s.len - s.iptr)).toNat (List.drop (s.len - s.iptr).toNat buf)) <;> rfl

/-- An interleaving in which a read is in progress, with an old snapshot of `iptr`, while
the writer wraps round behind it. -/
example :
    let c := execAll { q := init 3 0 [9, 9, 9, 9] }
      [.wStart [1, 2], .wPlan, .wCopy 1, .wCopy 0, .wCommit,
       .rStart 2, .wStart [3, 4, 5], .rPlan, .rCopy 1, .wPlan, .wCopy 0, .rCopy 0, .wCommit, .rCommit,
       .wStart [4, 5, 6], .wPlan, .wCopy 1, .rStart 9, .wCopy 0, .wCommit, .rPlan, .rCopy 0, .rCommit]
    c.accepted = [1, 2, 3, 4, 5] ∧ c.delivered = [1, 2, 3] := by
  decide

end Queue
