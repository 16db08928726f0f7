import Verif.V42bis.Model

/-! # The dictionary of V.42bis is a forest -/

namespace V42bis

@[simp] theorem ok_bind {α β : Type} (x : α) (f : α → M β) : (Except.ok x >>= f) = f x := rfl
@[simp] theorem error_bind {α β : Type} (x : Err) (f : α → M β) : (Except.error x >>= f) = Except.error x := rfl

/-- The chain of children which begins at `e`. -/
def Chain (d : Dict) : Nat → List Nat → Prop
  | e, [] => e = 0
  | e, x :: l => e = x ∧ x ≠ 0 ∧ Chain d (d x).next l

/-- The string of a node. -/
inductive Path (d : Dict) : Nat → List Byte → Prop
  | nil : Path d 0 []
  | cons {p : Nat} {l : List Byte} : p ≠ 0 → p < 4096 → Path d (d p).parent l → Path d p (l ++ [(d p).octet])

/-- The dictionary when `c1` is the entry to be used next. -/
structure WFK (d : Dict) (c1 n2 n7 : Nat) (K : Nat → List Nat) : Prop where
  n2le : n2 ≤ 4096
  c1lo : 259 ≤ c1
  c1hi : c1 < n2
  n7le : n7 ≤ 250
  chain : ∀ a, Chain d (d a).child (K a)
  mem : ∀ a e, e ∈ K a ↔ a ≠ 0 ∧ e ≠ c1 ∧ (d e).parent = a
  nodup : ∀ a, (K a).Nodup
  range : ∀ e, (d e).parent ≠ 0 → 259 ≤ e ∧ e < n2 ∧ (d e).parent < 4096
  kid : K c1 = []
  depth : ∀ e, e ≠ 0 → e < 4096 → e ≠ c1 → ∃ l, Path d e l ∧ l.length ≤ n7
  root : ∀ e, 3 ≤ e → e < 259 → (d e).octet = BitVec.ofNat 8 (e - 3)

def WF (d : Dict) (c1 n2 n7 : Nat) : Prop := ∃ K, WFK d c1 n2 n7 K

theorem nodup_length : ∀ (n : Nat) (l : List Nat), l.Nodup → (∀ x ∈ l, x < n) → l.length ≤ n := by
  intro n
  induction n with
  | zero =>
    intro l _ h
    cases l with
    | nil => exact Nat.le_refl _
    | cons x t => exact absurd (h x (List.mem_cons_self ..)) (Nat.not_lt_zero _)
  | succ n ih =>
    intro l hn h
    have h1 := ih (l.erase n) (hn.erase n) (by
      intro x hx
      have a := (List.Nodup.mem_erase_iff hn).1 hx
      have := h x a.2
      have := a.1
      omega)
    have h2 : (l.erase n).length ≥ l.length - 1 := by
      rw [List.length_erase]; split <;> omega
    omega

/-! ## Looking for a child -/

theorem matchChain_ok (d : Dict) (b : Byte) : ∀ (n : Nat) (L : List Nat) (e : Nat), Chain d e L → (∀ x ∈ L, x < 4096) → L.length < n →
    ∃ r, matchChain n d e b = .ok r ∧ ((r = 0 ∧ ∀ x ∈ L, (d x).octet ≠ b) ∨ (r ∈ L ∧ (d r).octet = b)) := by
  intro n
  induction n with
  | zero => intro L e _ _ h; omega
  | succ n ih =>
    intro L e hc hm hl
    cases L with
    | nil =>
      cases hc
      exact ⟨0, by simp [matchChain], Or.inl ⟨rfl, fun x hx => by cases hx⟩⟩
    | cons x t =>
      obtain ⟨h1, h2, h3⟩ := hc
      subst h1
      have hx : e < 4096 := hm e (List.mem_cons_self ..)
      by_cases hb : (d e).octet = b
      · exact ⟨e, by simp [matchChain, h2, rd, hx, hb], Or.inr ⟨List.mem_cons_self .., hb⟩⟩
      · obtain ⟨r, hr, hs⟩ := ih t _ h3 (fun y hy => hm y (List.mem_cons_of_mem _ hy)) (by simp at hl; omega)
        refine ⟨r, by simp [matchChain, h2, rd, hx, hb, hr], ?_⟩
        rcases hs with ⟨a1, a2⟩ | ⟨a1, a2⟩
        · left
          refine ⟨a1, fun y hy => ?_⟩
          rcases List.mem_cons.1 hy with rfl | hy
          · exact hb
          · exact a2 y hy
        · exact Or.inr ⟨List.mem_cons_of_mem _ a1, a2⟩

theorem WFK.mem_lt {d c1 n2 n7 K} (w : WFK d c1 n2 n7 K) {a e : Nat} (h : e ∈ K a) : 259 ≤ e ∧ e < n2 ∧ e ≠ c1 ∧ (d e).parent = a := by
  have h1 := (w.mem a e).1 h
  have h2 := w.range e (by rw [h1.2.2]; exact h1.1)
  exact ⟨h2.1, h2.2.1, h1.2.1, h1.2.2⟩

theorem Path.zero {d l} (h : Path d 0 l) : l = [] := by
  cases h with
  | nil => rfl
  | cons h _ _ => exact absurd rfl h

theorem Path.det {d} : ∀ {e l l'}, Path d e l → Path d e l' → l = l' := by
  intro e l l' h
  induction h generalizing l' with
  | nil => intro h'; exact (h'.zero).symm
  | cons h1 h2 h3 ih =>
    intro h'
    cases h' with
    | nil => exact absurd rfl h1
    | cons _ _ h4 => rw [ih h4]

theorem Path.length_pos {d e l} (h : Path d e l) (he : e ≠ 0) : 0 < l.length := by
  cases h with
  | nil => exact absurd rfl he
  | cons _ _ _ => simp

/-- A root node has the string of its octet. -/
theorem WF.root {d c1 n2 n7} (w : WF d c1 n2 n7) (b : Byte) : Path d (b.toNat + 3) [b] := by
  obtain ⟨K, w⟩ := w
  have hb : b.toNat < 256 := b.isLt
  have h0 : (d (b.toNat + 3)).parent = 0 := by
    by_cases h : (d (b.toNat + 3)).parent = 0
    · exact h
    · have := w.range _ h; omega
  have h1 := w.root (b.toNat + 3) (by omega) (by omega)
  have h2 : (d (b.toNat + 3)).octet = b := by
    rw [h1]; simp
  have := Path.cons (d := d) (p := b.toNat + 3) (l := []) (by omega) (by omega) (by rw [h0]; exact Path.nil)
  rw [h2] at this
  exact this

/-- The matching of one more octet. -/
theorem match_ok {d c1 n2 n7} (w : WF d c1 n2 n7) {a : Nat} {l : List Byte} (hc : a ≠ c1) (p : Path d a l) (b : Byte) :
    ∃ r, matchOctet d a b = .ok r ∧ (r = 0 ∧ a ≠ 0 ∨ r ≠ 0 ∧ r < 4096 ∧ r ≠ c1 ∧ Path d r (l ++ [b]) ∧ (a = 0 ∧ r < 259 ∨ a ≠ 0 ∧ 259 ≤ r)) := by
  have w' := w
  obtain ⟨K, w⟩ := w
  by_cases h0 : a = 0
  · subst h0
    have hb : b.toNat < 256 := b.isLt
    have := w.c1lo
    refine ⟨b.toNat + 3, by simp [matchOctet], Or.inr ⟨by omega, by omega, by omega, ?_, by omega⟩⟩
    rw [p.zero]
    exact WF.root w' b
  · have ha : a < 4096 := by
      cases p with
      | nil => exact absurd rfl h0
      | cons _ h _ => exact h
    have hn := w.n2le
    have hK : ∀ x ∈ K a, x < 4096 := fun x hx => by have := w.mem_lt hx; omega
    obtain ⟨r, h1, h2⟩ := matchChain_ok d b (maxCodewords + 1) (K a) _ (w.chain a) hK (by
      have := nodup_length 4096 (K a) (w.nodup a) hK
      show _ < 4096 + 1; omega)
    refine ⟨r, ?_, ?_⟩
    · simp [matchOctet, h0, rd, ha, h1]
    · rcases h2 with ⟨h2, _⟩ | ⟨h2, h3⟩
      · exact Or.inl ⟨h2, h0⟩
      · have h4 := w.mem_lt h2
        refine Or.inr ⟨by omega, by omega, h4.2.2.1, ?_, Or.inr ⟨h0, h4.1⟩⟩
        have := Path.cons (d := d) (p := r) (l := l) (by omega) (by omega) (by rw [h4.2.2.2]; exact p)
        rw [h3] at this
        exact this

/-! ## Expanding a code -/

theorem path_ok (d : Dict) : ∀ {e l}, Path d e l → ∀ n, l.length < n → path n d e = .ok l := by
  intro e l h
  induction h with
  | nil => intro n hn; cases n with
    | zero => omega
    | succ n => simp [path]
  | cons h1 h2 h3 ih =>
    intro n hn
    cases n with
    | zero => omega
    | succ n =>
      have := ih n (by simp at hn; omega)
      simp [path, h1, rd, h2, this]

/-! ## Adding a child -/

theorem findLeaf_ok (d : Dict) (n2 x : Nat) (h1 : 259 ≤ x) (h2 : x < n2) (h3 : n2 ≤ 4096) (h4 : (d x).child = 0) :
    ∀ (n next : Nat), 259 ≤ next → next < n2 → (if next < x then x - next else (x - 259) + (n2 - next)) ≤ n →
      ∃ r, findLeaf n d n2 next = .ok r ∧ 259 ≤ r ∧ r < n2 ∧ (d r).child = 0 := by
  intro n
  induction n with
  | zero => intro next _ h; split <;> omega
  | succ n ih =>
    intro next a1 a2 a3
    have e : ∃ m, m = (if next + 1 = n2 then 259 else next + 1) := ⟨_, rfl⟩
    obtain ⟨m, hm⟩ := e
    have b1 : 259 ≤ m := by rw [hm]; split <;> omega
    have b2 : m < n2 := by rw [hm]; split <;> omega
    have b3 : m < 4096 := by omega
    by_cases hc : (d m).child = 0
    · refine ⟨m, ?_, b1, b2, hc⟩
      simp only [findLeaf]
      rw [← hm]
      simp [rd, b3, hc]
    · have hx : m ≠ x := fun h => hc (h ▸ h4)
      have b4 : (if m < x then x - m else (x - 259) + (n2 - m)) ≤ n := by
        by_cases c1 : next + 1 = n2
        · rw [if_pos c1] at hm
          rw [if_neg (by omega)] at a3
          split <;> omega
        · rw [if_neg c1] at hm
          by_cases c2 : next < x
          · rw [if_pos c2] at a3
            rw [if_pos (by omega)]; omega
          · rw [if_neg c2] at a3
            rw [if_neg (by omega)]; omega
      obtain ⟨r, hr, hr'⟩ := ih m b1 b2 b4
      refine ⟨r, ?_, hr'⟩
      simp only [findLeaf]
      rw [← hm]
      simp [rd, b3, hc, hr]

/-- A change which leaves the `next` of the nodes of a chain alone leaves the chain alone. -/
theorem Chain.congr {d d' : Dict} : ∀ {L e}, Chain d e L → (∀ x ∈ L, (d' x).next = (d x).next) → Chain d' e L := by
  intro L
  induction L with
  | nil => intro e h _; exact h
  | cons x t ih =>
    intro e h hx
    obtain ⟨h1, h2, h3⟩ := h
    refine ⟨h1, h2, ?_⟩
    rw [hx x (List.mem_cons_self ..)]
    exact ih h3 (fun y hy => hx y (List.mem_cons_of_mem _ hy))

/-- What detaching does with the nodes. -/
def SetNext (d : Dict) (e v : Nat) : Dict := fun j => if j = e then { d e with next := v } else d j

def SetChild (d : Dict) (e v : Nat) : Dict := fun j => if j = e then { d e with child := v } else d j

theorem unlinkAfter_ok (d : Dict) (r : Nat) : ∀ (n : Nat) (t : List Nat) (e : Nat), Chain d e (e :: t) → (e :: t).Nodup → r ∈ t →
    (∀ x ∈ e :: t, x < 4096) → t.length < n → ∃ y, y ∈ e :: t ∧ unlinkAfter n d e r = .ok (SetNext d y (d r).next) ∧
      Chain (SetNext d y (d r).next) e ((e :: t).erase r) := by
  intro n
  induction n with
  | zero => intro t e _ _ _ _ h; omega
  | succ n ih =>
    intro t e hc hn hr hx hl
    obtain ⟨_, h2, h3⟩ := hc
    have he := hx e (List.mem_cons_self ..)
    have hr4 : r < 4096 := hx r (List.mem_cons_of_mem _ hr)
    obtain ⟨hn1, hn2⟩ := List.nodup_cons.1 hn
    have her : e ≠ r := fun h => hn1 (h ▸ hr)
    cases t with
    | nil => cases hr
    | cons x t' =>
      obtain ⟨g1, g2, g3⟩ := h3
      by_cases hxr : x = r
      · subst hxr
        refine ⟨e, List.mem_cons_self .., ?_, ?_⟩
        · simp only [unlinkAfter, rd, he, if_true, ok_bind, g1]
          simp [hr4, wr, he]
          rfl
        · rw [List.erase_cons_tail (by simpa using her), List.erase_cons_head]
          refine ⟨rfl, h2, ?_⟩
          have : (SetNext d e (d x).next e).next = (d x).next := by simp [SetNext]
          rw [this]
          refine g3.congr (fun y hy => ?_)
          have : y ≠ e := fun h => hn1 (h ▸ List.mem_cons_of_mem _ hy)
          simp [SetNext, this]
      · have hr' : r ∈ t' := by
          rcases List.mem_cons.1 hr with h | h
          · exact absurd h.symm hxr
          · exact h
        obtain ⟨y, k1, k2, k3⟩ := ih t' x ⟨rfl, g2, g3⟩ hn2 hr' (fun z hz => hx z (List.mem_cons_of_mem _ hz)) (by simp at hl; omega)
        have hye : y ≠ e := fun h => hn1 (h ▸ k1)
        refine ⟨y, List.mem_cons_of_mem _ k1, ?_, ?_⟩
        · simp only [unlinkAfter, rd, he, if_true, ok_bind, g1]
          rw [if_pos hxr, k2]
        · rw [List.erase_cons_tail (by simpa using her)]
          refine ⟨rfl, h2, ?_⟩
          have : (SetNext d y (d r).next e).next = (d e).next := by simp [SetNext, Ne.symm hye]
          rw [this, g1]
          exact k3

/-- The dictionary when all entries are attached. -/
structure Full (d : Dict) (n2 n7 : Nat) (K : Nat → List Nat) : Prop where
  n2le : n2 ≤ 4096
  n7le : n7 ≤ 250
  chain : ∀ a, Chain d (d a).child (K a)
  mem : ∀ a e, e ∈ K a ↔ a ≠ 0 ∧ (d e).parent = a
  nodup : ∀ a, (K a).Nodup
  range : ∀ e, (d e).parent ≠ 0 → 259 ≤ e ∧ e < n2 ∧ (d e).parent < 4096
  depth : ∀ e, e ≠ 0 → e < 4096 → ∃ l, Path d e l ∧ l.length ≤ n7
  root : ∀ e, 3 ≤ e → e < 259 → (d e).octet = BitVec.ofNat 8 (e - 3)

/-- The strings do not depend on the chains. -/
theorem Path.congr {d d' : Dict} (h : ∀ e, (d' e).parent = (d e).parent ∧ (d' e).octet = (d e).octet) : ∀ {e l}, Path d e l → Path d' e l := by
  intro e l p
  induction p with
  | nil => exact Path.nil
  | @cons q l h1 h2 h3 ih =>
    have := Path.cons (d := d') (p := q) (l := l) h1 h2 (by rw [(h q).1]; exact ih)
    rw [(h q).2] at this
    exact this

theorem detach_ok {d n2 n7 K} (f : Full d n2 n7 K) {r : Nat} (h1 : 259 ≤ r) (h2 : r < n2) (h3 : (d r).child = 0) :
    ∃ d', detach d r = .ok d' ∧ WF d' r n2 n7 ∧ ∀ e, (d' e).parent = (d e).parent ∧ (d' e).octet = (d e).octet := by
  have hn := f.n2le
  have hr4 : r < 4096 := by omega
  have hKr : K r = [] := by
    have := f.chain r
    rw [h3] at this
    cases hK : K r with
    | nil => rfl
    | cons x t => rw [hK] at this; exact absurd this.1.symm this.2.1
  by_cases hp : (d r).parent = 0
  · refine ⟨d, by simp [detach, rd, hr4, hp], ⟨K, ?_⟩, fun e => ⟨rfl, rfl⟩⟩
    refine ⟨f.n2le, h1, h2, f.n7le, f.chain, ?_, f.nodup, f.range, hKr, fun e a b _ => f.depth e a b, f.root⟩
    intro a e
    rw [f.mem a e]
    constructor
    · intro ⟨g1, g2⟩
      refine ⟨g1, fun h => ?_, g2⟩
      rw [h, hp] at g2
      exact g1 g2.symm
    · intro ⟨g1, _, g3⟩
      exact ⟨g1, g3⟩
  · obtain ⟨p, hpe⟩ : ∃ p, p = (d r).parent := ⟨_, rfl⟩
    have hp0 : p ≠ 0 := hpe ▸ hp
    have hp4 : p < 4096 := hpe ▸ (f.range r hp).2.2
    have hrK : r ∈ K p := (f.mem p r).2 ⟨hp0, hpe.symm⟩
    have hch := f.chain p
    have hnd := f.nodup p
    have hlt : ∀ a x, x ∈ K a → x < 4096 := by
      intro a x hx
      have g := (f.mem a x).1 hx
      have := f.range x (by rw [g.2]; exact g.1)
      omega
    -- the common end
    have finish : ∀ d' : Dict, (∀ e, (d' e).parent = (d e).parent ∧ (d' e).octet = (d e).octet) →
        (∀ a, a ≠ p → Chain d' (d' a).child (K a)) → Chain d' (d' p).child ((K p).erase r) → WF d' r n2 n7 := by
      intro d' e1 e2 e3
      refine ⟨fun a => if a = p then (K p).erase r else K a, f.n2le, h1, h2, f.n7le, ?_, ?_, ?_, ?_, ?_, ?_, ?_⟩
      · intro a
        by_cases h : a = p
        · subst h; simpa using e3
        · simpa [h] using e2 a h
      · intro a e
        rw [(e1 e).1]
        by_cases h : a = p
        · subst h
          simp only [if_true]
          rw [List.Nodup.mem_erase_iff hnd, f.mem]
          constructor
          · intro ⟨g1, g2, g3⟩; exact ⟨g2, g1, g3⟩
          · intro ⟨g1, g2, g3⟩; exact ⟨g2, g1, g3⟩
        · simp only [h, if_false]
          rw [f.mem]
          constructor
          · intro ⟨g1, g2⟩
            refine ⟨g1, fun g => ?_, g2⟩
            rw [g, ← hpe] at g2
            exact h g2.symm
          · intro ⟨g1, _, g3⟩; exact ⟨g1, g3⟩
      · intro a
        by_cases h : a = p
        · subst h; simpa using hnd.erase r
        · simpa [h] using f.nodup a
      · intro e he
        rw [(e1 e).1] at he ⊢
        exact f.range e he
      · have : r ≠ p := by
          intro h
          rw [h] at hKr
          rw [hKr] at hrK
          cases hrK
        simpa [this] using hKr
      · intro e g1 g2 _
        obtain ⟨l, k1, k2⟩ := f.depth e g1 g2
        exact ⟨l, k1.congr e1, k2⟩
      · intro e g1 g2
        rw [(e1 e).2]
        exact f.root e g1 g2
    have disj : ∀ a, a ≠ p → ∀ x ∈ K a, x ∉ K p := by
      intro a ha x hx hx'
      have g1 := (f.mem a x).1 hx
      have g2 := (f.mem p x).1 hx'
      exact ha (g1.2.symm.trans g2.2)
    cases hK : K p with
    | nil => rw [hK] at hrK; cases hrK
    | cons x t =>
      rw [hK] at hch hnd hrK
      obtain ⟨c1, c2, c3⟩ := hch
      by_cases hxr : x = r
      · refine ⟨SetChild d p (d r).next, ?_, ?_, ?_⟩
        · simp only [detach, rd, hr4, if_true, ok_bind]
          rw [if_pos hp, ← hpe]
          simp only [hp4, if_true, ok_bind]
          rw [if_pos (c1.trans hxr)]
          simp [wr, hp4]
          rfl
        · apply finish
          · intro e
            by_cases h : e = p <;> simp [SetChild, h]
          · intro a ha
            have : (SetChild d p (d r).next a).child = (d a).child := by simp [SetChild, ha]
            rw [this]
            refine (f.chain a).congr (fun y hy => ?_)
            by_cases h : y = p <;> simp [SetChild, h]
          · have : (SetChild d p (d r).next p).child = (d r).next := by simp [SetChild]
            rw [this, hK, hxr, List.erase_cons_head]
            rw [hxr] at c3
            refine c3.congr (fun y hy => ?_)
            by_cases h : y = p <;> simp [SetChild, h]
        · intro e
          by_cases h : e = p <;> simp [SetChild, h]
      · have hrt : r ∈ t := by
          rcases List.mem_cons.1 hrK with h | h
          · exact absurd h.symm hxr
          · exact h
        obtain ⟨y, k1, k2, k3⟩ := unlinkAfter_ok d r (maxCodewords + 1) t x ⟨rfl, c2, c3⟩ hnd hrt
          (fun z hz => hlt p z (hK ▸ hz)) (by
            have := nodup_length 4096 (x :: t) hnd (fun z hz => hlt p z (hK ▸ hz))
            simp at this
            show _ < 4096 + 1; omega)
        have e1 : ∀ e, (SetNext d y (d r).next e).parent = (d e).parent ∧ (SetNext d y (d r).next e).octet = (d e).octet := by
          intro e
          by_cases h : e = y <;> simp [SetNext, h]
        have e2 : ∀ e, (SetNext d y (d r).next e).child = (d e).child := by
          intro e
          by_cases h : e = y <;> simp [SetNext, h]
        refine ⟨SetNext d y (d r).next, ?_, ?_, e1⟩
        · simp only [detach, rd, hr4, if_true, ok_bind]
          rw [if_pos hp, ← hpe]
          simp only [hp4, if_true, ok_bind]
          rw [if_neg (by rw [c1]; exact hxr), c1]
          exact k2
        · apply finish _ e1
          · intro a ha
            rw [e2]
            refine (f.chain a).congr (fun z hz => ?_)
            have : z ≠ y := fun h => disj a ha z hz (by rw [hK, h]; exact k1)
            simp [SetNext, this]
          · rw [e2, c1, hK]
            exact k3

/-- The dictionary with the new node. -/
def Attach (d : Dict) (c1 a : Nat) (b : Byte) : Dict :=
  fun j => if j = a then { d a with child := c1 } else if j = c1 then ⟨b, a, 0, (d a).child⟩ else d j

theorem attach_full {d c1 n2 n7 K} (w : WFK d c1 n2 n7 K) {a : Nat} (b : Byte) (h0 : a ≠ 0) (h1 : a ≠ c1) (h4 : a < 4096)
    (hl : ∃ l, Path d a l ∧ l.length < n7) :
    Full (Attach d c1 a b) n2 n7 (fun x => if x = a then c1 :: K a else K x) := by
  have hn := w.n2le
  have hlo := w.c1lo
  have hhi := w.c1hi
  have par : ∀ e, e ≠ c1 → (Attach d c1 a b e).parent = (d e).parent ∧ (Attach d c1 a b e).octet = (d e).octet := by
    intro e he
    by_cases h : e = a <;> simp [Attach, h, he]
  have parc : (Attach d c1 a b c1).parent = a ∧ (Attach d c1 a b c1).octet = b := by
    simp [Attach, Ne.symm h1]
  have nx : ∀ e, e ≠ c1 → (Attach d c1 a b e).next = (d e).next := by
    intro e he
    by_cases h : e = a <;> simp [Attach, h, he]
  -- nobody but the new node has `c1` as its parent
  have hpc : ∀ e, e ≠ c1 → (d e).parent ≠ c1 := by
    intro e he h
    have := (w.mem c1 e).2 ⟨by omega, he, h⟩
    rw [w.kid] at this
    cases this
  have pth : ∀ {e l}, Path d e l → e ≠ c1 → Path (Attach d c1 a b) e l := by
    intro e l p
    induction p with
    | nil => intro _; exact Path.nil
    | @cons q l g1 g2 g3 ih =>
      intro hq
      have := Path.cons (d := Attach d c1 a b) (p := q) (l := l) g1 g2 (by rw [(par q hq).1]; exact ih (hpc q hq))
      rw [(par q hq).2] at this
      exact this
  refine ⟨w.n2le, w.n7le, ?_, ?_, ?_, ?_, ?_, ?_⟩
  · intro x
    have hKx : ∀ z, ∀ y ∈ K z, y ≠ c1 := fun z y hy => (w.mem_lt hy).2.2.1
    by_cases hx : x = a
    · subst hx
      simp only [if_true]
      have : (Attach d c1 x b x).child = c1 := by simp [Attach]
      rw [this]
      refine ⟨rfl, by omega, ?_⟩
      have : (Attach d c1 x b c1).next = (d x).child := by simp [Attach, Ne.symm h1]
      rw [this]
      exact (w.chain x).congr (fun y hy => nx y (hKx x y hy))
    · simp only [hx, if_false]
      by_cases hxc : x = c1
      · subst hxc
        have : (Attach d x a b x).child = 0 := by simp [Attach, hx]
        rw [this, w.kid]
        rfl
      · have : (Attach d c1 a b x).child = (d x).child := by simp [Attach, hx, hxc]
        rw [this]
        exact (w.chain x).congr (fun y hy => nx y (hKx x y hy))
  · intro x e
    by_cases hec : e = c1
    · subst hec
      rw [parc.1]
      by_cases hx : x = a
      · subst hx; simp [h0]
      · simp only [hx, if_false]
        constructor
        · intro h; exact absurd rfl (w.mem_lt h).2.2.1
        · intro ⟨_, h⟩; exact absurd h.symm hx
    · rw [(par e hec).1]
      by_cases hx : x = a
      · subst hx
        simp only [if_true, List.mem_cons, hec, false_or]
        rw [w.mem]
        exact ⟨fun ⟨g1, _, g3⟩ => ⟨g1, g3⟩, fun ⟨g1, g3⟩ => ⟨g1, hec, g3⟩⟩
      · simp only [hx, if_false]
        rw [w.mem]
        exact ⟨fun ⟨g1, _, g3⟩ => ⟨g1, g3⟩, fun ⟨g1, g3⟩ => ⟨g1, hec, g3⟩⟩
  · intro x
    by_cases hx : x = a
    · subst hx
      simp only [if_true]
      exact List.nodup_cons.2 ⟨fun h => absurd rfl (w.mem_lt h).2.2.1, w.nodup x⟩
    · simp only [hx, if_false]
      exact w.nodup x
  · intro e he
    by_cases hec : e = c1
    · subst hec
      rw [parc.1]
      exact ⟨hlo, hhi, h4⟩
    · rw [(par e hec).1] at he ⊢
      exact w.range e he
  · intro e g1 g2
    by_cases hec : e = c1
    · subst hec
      obtain ⟨l, k1, k2⟩ := hl
      have := Path.cons (d := Attach d e a b) (p := e) (l := l) g1 g2 (by rw [parc.1]; exact pth k1 h1)
      rw [parc.2] at this
      exact ⟨_, this, by simp; omega⟩
    · obtain ⟨l, k1, k2⟩ := w.depth e g1 g2 hec
      exact ⟨l, pth k1 hec, k2⟩
  · intro e g1 g2
    have : e ≠ c1 := by omega
    rw [(par e this).2]
    exact w.root e g1 g2

/-- The addition of a node. -/
theorem addOctet_ok {d c1 n2 n7} (w : WF d c1 n2 n7) {a : Nat} (b : Byte) (h0 : a ≠ 0) (h1 : a ≠ c1) (h4 : a < 4096)
    (hl : ∃ l, Path d a l ∧ l.length < n7) :
    ∃ d' c1', addOctet d c1 n2 a b = .ok (d', c1') ∧ WF d' c1' n2 n7 ∧ (∀ e l, e ≠ c1 → Path d e l → Path d' e l) ∧
      (∀ e l, e ≠ c1 → Path d' e l → Path d e l) := by
  obtain ⟨K, w⟩ := w
  have hn := w.n2le
  have hlo := w.c1lo
  have hhi := w.c1hi
  have f := attach_full w b h0 h1 h4 hl
  have hc : (Attach d c1 a b c1).child = 0 := by simp [Attach, Ne.symm h1]
  obtain ⟨r, r1, r2, r3, r4⟩ := findLeaf_ok (Attach d c1 a b) n2 c1 hlo hhi hn hc (maxCodewords + 1) c1 hlo hhi (by
    rw [if_neg (by omega)]; show _ ≤ 4096 + 1; omega)
  obtain ⟨d', k1, k2, k3⟩ := detach_ok f r2 r3 r4
  have par : ∀ e, e ≠ c1 → (d' e).parent = (d e).parent ∧ (d' e).octet = (d e).octet := by
    intro e he
    rw [(k3 e).1, (k3 e).2]
    by_cases h : e = a <;> simp [Attach, h, he]
  have hpc : ∀ e, e ≠ c1 → (d e).parent ≠ c1 := by
    intro e he h
    have := (w.mem c1 e).2 ⟨by omega, he, h⟩
    rw [w.kid] at this
    cases this
  refine ⟨d', r, ?_, k2, ?_, ?_⟩
  · have hc4 : c1 < 4096 := by omega
    have e : (fun j => if j = a then
          { (if a = c1 then { (if c1 = c1 then { d c1 with octet := b, parent := a, child := 0 } else d c1) with
              next := (if a = c1 then { d c1 with octet := b, parent := a, child := 0 } else d a).child }
              else if a = c1 then { d c1 with octet := b, parent := a, child := 0 } else d a) with child := c1 }
          else if j = c1 then { (if c1 = c1 then { d c1 with octet := b, parent := a, child := 0 } else d c1) with
              next := (if a = c1 then { d c1 with octet := b, parent := a, child := 0 } else d a).child }
          else if j = c1 then { d c1 with octet := b, parent := a, child := 0 } else d j) = Attach d c1 a b := by
      funext j
      simp only [h1, if_false, if_true]
      by_cases hj : j = a
      · simp [hj, Attach]
      · by_cases hj' : j = c1
        · simp [hj', Attach, Ne.symm h1]
        · simp [hj, hj', Attach]
    simp only [addOctet, wr, rd, hc4, h4, if_true, ok_bind]
    simp only [if_true] at e
    rw [e, r1]
    simp [k1]
  · intro e l he p
    induction p with
    | nil => exact Path.nil
    | @cons q l g1 g2 g3 ih =>
      have := Path.cons (d := d') (p := q) (l := l) g1 g2 (by rw [(par q he).1]; exact ih (hpc q he))
      rw [(par q he).2] at this
      exact this
  · intro e l he p
    induction p with
    | nil => exact Path.nil
    | @cons q l g1 g2 g3 ih =>
      have g3' := ih (by rw [(par q he).1]; exact hpc q he)
      rw [(par q he).1] at g3'
      have := Path.cons (d := d) (p := q) (l := l) g1 g2 g3'
      rw [← (par q he).2] at this
      exact this

/-- The dictionary to begin with. -/
theorem wf_init {n2 n7 : Nat} (h1 : 512 ≤ n2) (h2 : n2 ≤ 4096) (h3 : 1 ≤ n7) (h4 : n7 ≤ 250) : WF dict0 259 n2 n7 := by
  have hp : ∀ e, (dict0 e).parent = 0 := by intro e; unfold dict0; split <;> rfl
  have hc : ∀ e, (dict0 e).child = 0 := by intro e; unfold dict0; split <;> rfl
  refine ⟨fun _ => [], h2, by omega, by omega, h4, ?_, ?_, ?_, ?_, rfl, ?_, ?_⟩
  · intro a; exact hc a
  · intro a e
    rw [hp]
    constructor
    · intro h; cases h
    · intro ⟨g1, _, g3⟩; exact absurd g3.symm g1
  · intro a; exact List.nodup_nil
  · intro e h; exact absurd (hp e) h
  · intro e g1 g2 _
    exact ⟨_, Path.cons g1 g2 (by rw [hp]; exact Path.nil), by simpa using h3⟩
  · intro e g1 g2
    simp [dict0, g1, g2]

end V42bis
