import Verif.At.Trie

/-!
# Commands are found
-/

namespace At

def T.entry : T → Nat
  | .mk e _ => e

def T.kids : T → K
  | .mk _ k => k

def K.find : K → Nat → Option T
  | .nil, _ => none
  | .cons d t r, c => if c = d then some t else r.find c

/-- The entry of the node at the end of a path. -/
def T.entryAt (t : T) : List Nat → Option Nat
  | [] => some t.entry
  | c :: w => match t.kids.find c with
    | none => none
    | some t => t.entryAt w

/-- As far into the tree as there are nodes. -/
def T.walk (t : T) : List Nat → Nat
  | [] => t.entry
  | c :: u => match t.kids.find (upper c) with
    | none => t.entry
    | some t => t.walk u

mutual
def T.Wf : T → Prop
  | .mk _ k => k.Wf 1
def K.Wf : K → Nat → Prop
  | .nil, _ => True
  | .cons c t r, i => i ≤ c ∧ t.Wf ∧ r.Wf (c + 1)
end

/-! ## The tree -/

theorem wf_mono : ∀ (k : K) (i j : Nat), j ≤ i → k.Wf i → k.Wf j
  | .nil, _, _, _, _ => by simp [K.Wf]
  | .cons c t r, i, j, h, hk => by
    rw [K.Wf] at hk ⊢
    exact ⟨by omega, hk.2⟩

theorem fresh_wf (n : Nat) : ∀ w : List Nat, 0 ∉ w → (T.fresh n w).Wf
  | [], _ => by simp [T.fresh, T.Wf, K.Wf]
  | c :: w, h => by
    simp only [List.mem_cons, not_or] at h
    rw [T.fresh, T.Wf, K.Wf]
    exact ⟨by omega, fresh_wf n w h.2, by simp [K.Wf]⟩

mutual
theorem add_wf (n : Nat) : ∀ (t : T) (w : List Nat), 0 ∉ w → t.Wf → (t.add n w).Wf
  | .mk e k, [], _, ht => by rw [T.add, T.Wf]; rw [T.Wf] at ht; exact ht
  | .mk e k, c :: w, h, ht => by
    simp only [List.mem_cons, not_or] at h
    rw [T.add, T.Wf]
    rw [T.Wf] at ht
    exact addK_wf n k c w 1 (by omega) h.2 ht
theorem addK_wf (n : Nat) : ∀ (k : K) (c : Nat) (w : List Nat) (i : Nat), i ≤ c → 0 ∉ w → k.Wf i → (k.add n c w).Wf i
  | .nil, c, w, i, hc, h, _ => by
    rw [K.add, K.Wf]
    exact ⟨hc, fresh_wf n w h, by simp [K.Wf]⟩
  | .cons d t r, c, w, i, hc, h, hk => by
    rw [K.Wf] at hk
    rw [K.add]
    by_cases h1 : c = d
    · rw [if_pos h1, K.Wf]
      exact ⟨hk.1, add_wf n t w h hk.2.1, hk.2.2⟩
    · rw [if_neg h1]
      by_cases h2 : c < d
      · rw [if_pos h2, K.Wf, K.Wf]
        exact ⟨hc, fresh_wf n w h, by omega, hk.2.1, hk.2.2⟩
      · rw [if_neg h2, K.Wf]
        exact ⟨hk.1, hk.2.1, addK_wf n r c w (d + 1) (by omega) h hk.2.2⟩
end

theorem find_below : ∀ (k : K) (i c : Nat), k.Wf i → c < i → k.find c = none
  | .nil, _, _, _, _ => rfl
  | .cons d t r, i, c, h, hc => by
    rw [K.Wf] at h
    rw [K.find, if_neg (by omega)]
    exact find_below r (d + 1) c h.2.2 (by omega)

theorem find_wf : ∀ (k : K) (i c : Nat) (t : T), k.Wf i → k.find c = some t → t.Wf
  | .nil, _, _, _, _, h => by simp [K.find] at h
  | .cons d t r, i, c, t', hk, h => by
    rw [K.Wf] at hk
    rw [K.find] at h
    split at h
    · cases h; exact hk.2.1
    · exact find_wf r (d + 1) c t' hk.2.2 h

theorem find_add (n : Nat) : ∀ (k : K) (c : Nat) (w : List Nat) (i : Nat) (d : Nat), k.Wf i →
    (k.add n c w).find d = if d = c then some (match k.find c with | none => T.fresh n w | some t => t.add n w) else k.find d
  | .nil, c, w, i, d, _ => by simp only [K.add, K.find]
  | .cons x t r, c, w, i, d, hk => by
    rw [K.Wf] at hk
    rw [K.add]
    by_cases h1 : c = x
    · subst h1
      rw [if_pos rfl]
      simp only [K.find, if_true]
      by_cases hd : d = c
      · simp only [hd, if_true]
      · simp only [hd, if_false]
    · rw [if_neg h1]
      by_cases h2 : c < x
      · rw [if_pos h2]
        simp only [K.find, if_neg h1, find_below r (x + 1) c hk.2.2 (by omega)]
      · rw [if_neg h2]
        simp only [K.find, if_neg h1]
        rw [find_add n r c w (x + 1) d hk.2.2]
        by_cases hd : d = x
        · rw [if_pos hd, if_neg (by omega)]
          simp [hd]
        · simp only [if_neg hd]

theorem fresh_entry (n : Nat) : ∀ (w p : List Nat), (T.fresh n w).entryAt p =
    if p = w then some n else if p <+: w then some 0 else none
  | [], [] => rfl
  | [], _ :: _ => by simp [T.fresh, T.entryAt, T.kids, K.find]
  | c :: w, [] => by simp [T.fresh, T.entryAt, T.entry]
  | c :: w, d :: p => by
    rw [T.fresh, T.entryAt, T.kids, K.find]
    by_cases h : d = c
    · subst h
      rw [if_pos rfl]
      simp only
      rw [fresh_entry n w p]
      simp only [List.cons.injEq, true_and, List.cons_prefix_cons]
    · rw [if_neg h]
      simp only [K.find, List.cons.injEq, h, false_and, if_false, List.cons_prefix_cons]

theorem add_entry (n : Nat) : ∀ (w : List Nat) (t : T) (p : List Nat), t.Wf → (t.add n w).entryAt p =
    if p = w then some n else if p <+: w then some ((t.entryAt p).getD 0) else t.entryAt p
  | [], .mk e k, [], _ => by simp [T.add, T.entryAt, T.entry]
  | [], .mk e k, _ :: _, _ => by simp [T.add, T.entryAt, T.kids]
  | c :: w, .mk e k, [], _ => by simp [T.add, T.entryAt, T.entry]
  | c :: w, .mk e k, d :: p, h => by
    rw [T.Wf] at h
    rw [T.add, T.entryAt, T.kids, find_add n k c w 1 d h, T.entryAt, T.kids]
    by_cases hd : d = c
    · subst hd
      rw [if_pos rfl]
      simp only [List.cons.injEq, true_and, List.cons_prefix_cons]
      cases hf : k.find d with
      | none => simp only [fresh_entry, Option.getD_none]
      | some t =>
        simp only
        exact add_entry n w t p (find_wf k 1 d t h hf)
    · rw [if_neg hd]
      simp only [List.cons.injEq, hd, false_and, if_false, List.cons_prefix_cons]

theorem build_wf : ∀ (ws : List (List Nat)) (t : T) (n : Nat), (∀ w ∈ ws, 0 ∉ w) → t.Wf → (build t n ws).Wf
  | [], _, _, _, h => h
  | w :: ws, t, n, hw, h => by
    rw [build]
    exact build_wf ws _ _ (fun x hx => hw x (List.mem_cons_of_mem _ hx)) (add_wf _ t w (hw w (List.mem_cons_self ..)) h)

theorem build_none : ∀ (ws : List (List Nat)) (t : T) (n : Nat) (p : List Nat), (∀ w ∈ ws, 0 ∉ w) → t.Wf →
    ((build t n ws).entryAt p = none ↔ t.entryAt p = none ∧ ∀ w ∈ ws, ¬ p <+: w)
  | [], t, n, p, _, _ => by simp [build]
  | w :: ws, t, n, p, hw, h => by
    rw [build, build_none ws _ _ p (fun x hx => hw x (List.mem_cons_of_mem _ hx)) (add_wf _ t w (hw w (List.mem_cons_self ..)) h),
      add_entry _ w t p h]
    by_cases h1 : p = w
    · subst h1; simp
    · rw [if_neg h1]
      by_cases h2 : p <+: w
      · simp [h2]
      · simp [h2]

theorem build_other : ∀ (ws : List (List Nat)) (t : T) (n : Nat) (p : List Nat) (e : Nat), (∀ w ∈ ws, 0 ∉ w) → t.Wf → p ∉ ws →
    (build t n ws).entryAt p = some e → e = (t.entryAt p).getD 0
  | [], t, n, p, e, _, _, _, h => by rw [build] at h; simp [h]
  | w :: ws, t, n, p, e, hw, ht, hp, h => by
    simp only [List.mem_cons, not_or] at hp
    rw [build] at h
    have := build_other ws _ _ p e (fun x hx => hw x (List.mem_cons_of_mem _ hx)) (add_wf _ t w (hw w (List.mem_cons_self ..)) ht) hp.2 h
    rw [this, add_entry _ w t p ht, if_neg hp.1]
    split <;> simp

theorem build_word : ∀ (ws : List (List Nat)) (t : T) (n i : Nat) (p : List Nat) (e : Nat), (∀ w ∈ ws, 0 ∉ w) → t.Wf → ws.Nodup →
    ws[i]? = some p → (build t n ws).entryAt p = some e → e = n + i + 1
  | [], _, _, _, _, _, _, _, _, h, _ => by simp at h
  | w :: ws, t, n, i, p, e, hw, ht, hn, hi, h => by
    rw [List.nodup_cons] at hn
    have hw' := fun x hx => hw x (List.mem_cons_of_mem w hx)
    have ht' := add_wf (n + 1) t w (hw w (List.mem_cons_self ..)) ht
    rw [build] at h
    cases i with
    | zero =>
      simp only [List.getElem?_cons_zero, Option.some.injEq] at hi
      subst hi
      have := build_other ws _ _ w e hw' ht' hn.1 h
      rw [this, add_entry _ w t w ht, if_pos rfl]; simp
    | succ i =>
      simp only [List.getElem?_cons_succ] at hi
      have := build_word ws _ _ i p e hw' ht' hn.2 hi h
      omega

/-! ## The table -/

theorem last_le : ∀ (k : K) (i : Nat), k ≠ .nil → k.Wf i → i ≤ k.last
  | .nil, _, h, _ => absurd rfl h
  | .cons c t .nil, i, _, h => by rw [K.Wf] at h; simpa [K.last] using h.1
  | .cons c t (.cons d t' r), i, _, h => by
    rw [K.Wf] at h
    have := last_le (.cons d t' r) (c + 1) (by simp) h.2.2
    rw [K.last]
    · omega
    · simp

theorem table_length : ∀ (k : K) (i base : Nat), k ≠ .nil → k.Wf i → (k.table i base).length + i = k.last + 1
  | .nil, _, _, h, _ => absurd rfl h
  | .cons c t .nil, i, base, _, h => by rw [K.Wf] at h; simp [K.last, K.table]; omega
  | .cons c t (.cons d t' r), i, base, _, h => by
    rw [K.Wf] at h
    have := table_length (.cons d t' r) (c + 1) (base + t.size) (by simp) h.2.2
    rw [K.last]
    · rw [K.table, List.length_append, List.length_replicate, List.length_cons]
      omega
    · simp

theorem head_length (base e : Nat) : ∀ k : K, k.Wf 1 → (head base e k).length = k.own
  | .nil, _ => rfl
  | .cons c t r, h => by
    have h' : (K.cons c t r).Wf c := by rw [K.Wf] at h ⊢; exact ⟨Nat.le_refl _, h.2⟩
    have h1 := table_length (.cons c t r) c (base + (K.cons c t r).own) (by simp) h'
    have h2 := last_le (.cons c t r) c (by simp) h'
    rw [head, List.length_cons, List.length_cons, List.length_cons, K.own]
    rw [K.own] at h1
    omega

mutual
theorem pack_length : ∀ (t : T) (base : Nat), t.Wf → (t.pack base).length = t.size
  | .mk e k, base, h => by
    rw [T.Wf] at h
    rw [T.pack, T.size, List.length_append, head_length base e k h, packK_length k 1 (base + k.own) h]
theorem packK_length : ∀ (k : K) (i base : Nat), k.Wf i → (k.pack base).length = k.size
  | .nil, _, _, _ => by simp [K.pack, K.size]
  | .cons c t r, i, base, h => by
    rw [K.Wf] at h
    rw [K.pack, K.size, List.length_append, pack_length t base h.2.1, packK_length r (c + 1) _ h.2.2]
end

theorem table_some : ∀ (k : K) (i base c : Nat) (t : T), k.Wf i → k.find c = some t →
    ∃ a b, i ≤ c ∧ c ≤ k.last ∧ (k.table i base)[c - i]? = some (base + a.length + 1) ∧ k.pack base = a ++ (t.pack (base + a.length) ++ b)
  | .nil, _, _, _, _, _, h => by simp [K.find] at h
  | .cons d t r, i, base, c, t', hk, h => by
    have hl := last_le (.cons d t r) d (by simp) (by rw [K.Wf] at hk ⊢; exact ⟨Nat.le_refl _, hk.2⟩)
    rw [K.Wf] at hk
    rw [K.find] at h
    by_cases hc : c = d
    · rw [if_pos hc] at h
      cases h
      subst hc
      refine ⟨[], r.pack (base + t.size), hk.1, hl, ?_, ?_⟩
      · rw [K.table, List.getElem?_append_right (by simp)]; simp
      · rw [K.pack]; simp
    · rw [if_neg hc] at h
      obtain ⟨a, b, h1, h2, h3, h4⟩ := table_some r (d + 1) (base + t.size) c t' hk.2.2 h
      have hlen := pack_length t base hk.2.1
      refine ⟨t.pack base ++ a, b, by omega, ?_, ?_, ?_⟩
      · cases r with
        | nil => simp [K.find] at h
        | cons x y z => rw [K.last]; exact h2; simp
      · rw [K.table, List.getElem?_append_right (by simp; omega), List.length_replicate,
          show c - i - (d - i) = (c - (d + 1)) + 1 by omega, List.getElem?_cons_succ, h3, List.length_append, hlen, Nat.add_assoc base]
      · rw [K.pack, h4, List.length_append, hlen, List.append_assoc, Nat.add_assoc base]

theorem table_none : ∀ (k : K) (i base c : Nat), k.Wf i → k.find c = none → i ≤ c → k ≠ .nil → c ≤ k.last →
    (k.table i base)[c - i]? = some 0
  | .nil, _, _, _, _, _, _, h, _ => absurd rfl h
  | .cons d t r, i, base, c, hk, h, hi, _, hl => by
    rw [K.Wf] at hk
    rw [K.find] at h
    have hc : c ≠ d := by intro hc; rw [if_pos hc] at h; cases h
    rw [if_neg hc] at h
    rw [K.table]
    by_cases h1 : c < d
    · rw [List.getElem?_append_left (by simp; omega)]
      rw [List.getElem?_replicate, if_pos (by omega)]
    · rw [List.getElem?_append_right (by simp; omega), List.length_replicate, show c - i - (d - i) = (c - (d + 1)) + 1 by omega,
        List.getElem?_cons_succ]
      cases r with
      | nil => rw [K.last] at hl; omega
      | cons x y z =>
        refine table_none _ (d + 1) _ c hk.2.2 h (by omega) (by simp) ?_
        rw [K.last] at hl
        · exact hl
        · simp

theorem search_step (a : List Nat) (e0 ptr f l e : Nat) (u : List Nat) (h : ptr + 2 < a.length) (h1 : a[ptr]? = some f)
    (h2 : a[ptr + 1]? = some l) (h3 : a[ptr + 2]? = some e) : search a e0 ptr u =
      if upper (u.headD 0) < f ∨ upper (u.headD 0) > l then some e
      else (a[ptr + 3 + upper (u.headD 0) - f]?).bind fun p => if p = 0 then some e
        else match u with
          | [] => none
          | _ :: u => search a e (p - 1) u := by
  rw [search.eq_def, if_pos (by omega), h1, h2, h3]
  rfl

theorem search_ok : ∀ (u : List Nat) (t : T) (pre post : List Nat) (e0 : Nat), t.Wf →
    search (pre ++ (t.pack pre.length ++ post)) e0 pre.length u = some (t.walk u)
  | u, .mk e .nil, pre, post, e0, _ => by
    have hw : (T.mk e .nil).walk u = e := by cases u <;> rfl
    rw [hw, T.pack, head]
    rw [search_step _ e0 pre.length 1 0 e u (by simp) (by simp) (by simp) (by simp), if_pos (by omega)]
  | u, .mk e (.cons c t r), pre, post, e0, h => by
    rw [T.Wf] at h
    have hc : 1 ≤ c := by rw [K.Wf] at h; exact h.1
    have hwf : (K.cons c t r).Wf c := by rw [K.Wf] at h ⊢; exact ⟨Nat.le_refl _, h.2⟩
    have hl := last_le _ c (by simp) hwf
    have hpack : (T.mk e (.cons c t r)).pack pre.length = head pre.length e (.cons c t r) ++
        (K.cons c t r).pack (pre.length + (K.cons c t r).own) := by rw [T.pack]
    have hhl := head_length pre.length e _ h
    have hown : (K.cons c t r).own = (K.cons c t r).last - c + 1 + 3 := by rw [K.own]
    have hhead : head pre.length e (.cons c t r) = c :: (K.cons c t r).last :: e ::
        (K.cons c t r).table c (pre.length + (K.cons c t r).own) := by rw [head]
    have hwalk : ∀ u, (T.mk e (.cons c t r)).walk u = match u with
        | [] => e
        | x :: u => match (K.cons c t r).find (upper x) with
          | none => e
          | some t => t.walk u := by intro u; cases u <;> rfl
    generalize (K.cons c t r).own = own at *
    have htl := table_length (K.cons c t r) c (pre.length + own) (by simp) hwf
    have hsome := fun x t' => table_some (K.cons c t r) c (pre.length + own) x t' hwf
    have hnone := fun x h1 h2 => table_none (K.cons c t r) c (pre.length + own) x hwf h1 h2 (by simp)
    have hbelow := fun x => find_below (K.cons c t r) c x hwf
    have hkwf := fun x t' => find_wf (K.cons c t r) c x t' hwf
    generalize hA : pre ++ ((T.mk e (.cons c t r)).pack pre.length ++ post) = A
    rw [hpack, hhead] at hA
    generalize (K.cons c t r).last = last at *
    generalize (K.cons c t r).table c (pre.length + own) = tab at *
    rw [search_step A e0 pre.length c last e u (by rw [← hA]; simp) (by rw [← hA]; simp) (by rw [← hA]; simp) (by rw [← hA]; simp), hwalk]
    cases u with
    | nil =>
      have : upper (([] : List Nat).headD 0) = 0 := rfl
      rw [this, if_pos (by omega)]
    | cons x u =>
      simp only [List.headD_cons]
      generalize upper x = y
      by_cases hy : y < c ∨ y > last
      · rw [if_pos hy]
        have : (K.cons c t r).find y = none := by
          cases hf : (K.cons c t r).find y with
          | none => rfl
          | some t' => obtain ⟨_, _, h1, h2, _⟩ := hsome y t' hf; omega
        rw [this]
      · rw [if_neg hy]
        have hA2 : A[pre.length + 3 + y - c]? = tab[y - c]? := by
          rw [← hA, List.getElem?_append_right (by omega), show pre.length + 3 + y - c - pre.length = (y - c) + 1 + 1 + 1 by omega]
          simp only [List.cons_append, List.getElem?_cons_succ, List.append_assoc]
          rw [List.getElem?_append_left (by omega)]
        rw [hA2]
        cases hf : (K.cons c t r).find y with
        | none => rw [hnone y hf (by omega) (by omega)]; rfl
        | some t' =>
          obtain ⟨a, b, _, _, h3, h4⟩ := hsome y t' hf
          rw [h3, Option.bind_some, if_neg (by omega)]
          simp only
          rw [h4] at hA
          have hlen : (pre ++ (c :: last :: e :: tab) ++ a).length = pre.length + own + a.length := by
            rw [hhead] at hhl
            simp only [List.length_append] at hhl ⊢
            omega
          have := search_ok u t' (pre ++ (c :: last :: e :: tab) ++ a) (b ++ post) e (hkwf y t' hf)
          rw [hlen] at this
          rw [show pre.length + own + a.length + 1 - 1 = pre.length + own + a.length by omega, ← this, ← hA]
          simp only [List.append_assoc]
termination_by u => u.length

/-- C108: the tree for some words. -/
def tree (ws : List (List Nat)) : T := build (.mk 0 .nil) 0 ws

theorem walk_spec : ∀ (u : List Nat) (t : T), ∃ p, p <+: u.map upper ∧ t.entryAt p = some (t.walk u) ∧
    ∀ c, p ++ [c] <+: u.map upper → t.entryAt (p ++ [c]) = none
  | [], t => ⟨[], by simp, rfl, fun c h => by simp at h⟩
  | x :: u, t => by
    cases hf : t.kids.find (upper x) with
    | none =>
      refine ⟨[], by simp, by rw [T.walk, hf]; rfl, fun c h => ?_⟩
      rw [List.map_cons, List.nil_append, List.cons_prefix_cons] at h
      rw [List.nil_append, T.entryAt, h.1, hf]
    | some t' =>
      obtain ⟨p, h1, h2, h3⟩ := walk_spec u t'
      refine ⟨upper x :: p, ?_, ?_, ?_⟩
      · rw [List.map_cons, List.cons_prefix_cons]; exact ⟨rfl, h1⟩
      · rw [T.entryAt, hf, T.walk, hf]; exact h2
      · intro c h
        rw [List.map_cons, List.cons_append, List.cons_prefix_cons] at h
        rw [List.cons_append, T.entryAt, hf]
        exact h3 c h.2

/-- C108: whatever the commands are and whatever is in the line, the search goes as far into the line as the head of any
command reaches.  If this is a command, its number is found; if it is not, nothing is. -/
theorem found (ws : List (List Nat)) (hw : ∀ w ∈ ws, 0 ∉ w) (hn : ws.Nodup) (u : List Nat) :
    ∃ p e, search ((tree ws).pack 0) 0 0 u = some e ∧ p <+: u.map upper ∧ (p = [] ∨ ∃ w ∈ ws, p <+: w) ∧
      (∀ c, p ++ [c] <+: u.map upper → ∀ w ∈ ws, ¬ p ++ [c] <+: w) ∧
      (∀ i, ws[i]? = some p → e = i + 1) ∧ (p ∉ ws → e = 0) := by
  have hr : (T.mk 0 .nil).Wf := by simp [T.Wf, K.Wf]
  have hroot : ∀ p, (T.mk 0 .nil).entryAt p = if p = [] then some 0 else none := by
    intro p; cases p <;> simp [T.entryAt, T.entry, T.kids, K.find]
  have h0 := search_ok u (tree ws) [] [] 0 (build_wf ws _ 0 hw hr)
  simp only [List.nil_append, List.append_nil, List.length_nil] at h0
  obtain ⟨p, h1, h2, h3⟩ := walk_spec u (tree ws)
  refine ⟨p, _, h0, h1, ?_, ?_, ?_, ?_⟩
  · refine Decidable.byContradiction fun h => ?_
    have hx : (tree ws).entryAt p = none := by
      rw [tree, build_none ws _ 0 p hw hr, hroot]
      refine ⟨if_neg (fun hp => h (Or.inl hp)), fun w hw' hp => h (Or.inr ⟨w, hw', hp⟩)⟩
    rw [hx] at h2; cases h2
  · intro c hc w hw'
    have := h3 c hc
    rw [tree, build_none ws _ 0 _ hw hr] at this
    exact this.2 w hw'
  · intro i hi
    have := build_word ws _ 0 i p _ hw hr hn hi h2
    omega
  · intro hp
    have := build_other ws _ 0 p _ hw hr hp h2
    rw [this, hroot]
    split <;> rfl

/-- C108: a command is found, if what follows it does not go on as another one does. -/
theorem word_found (ws : List (List Nat)) (hw : ∀ w ∈ ws, 0 ∉ w) (hn : ws.Nodup) (i : Nat) (w rest : List Nat)
    (hi : ws[i]? = some w) (hu : w.map upper = w) (hr : ∀ c ∈ rest.head?, ∀ x ∈ ws, ¬ w ++ [upper c] <+: x) :
    search ((tree ws).pack 0) 0 0 (w ++ rest) = some (i + 1) := by
  obtain ⟨p, e, h0, h1, h2, h3, h4, _⟩ := found ws hw hn (w ++ rest)
  rw [List.map_append, hu] at h1 h3
  have hwm : w ∈ ws := List.mem_of_getElem? hi
  have hp : p = w := by
    rcases List.prefix_or_prefix_of_prefix h1 (List.prefix_append w (rest.map upper)) with h | h
    · obtain ⟨d, hd⟩ := h
      cases d with
      | nil => simpa using hd
      | cons c d =>
        have hx : p ++ [c] <+: w := ⟨d, by rw [← hd]; simp⟩
        exact absurd hx (h3 c (hx.trans (List.prefix_append ..)) w hwm)
    · obtain ⟨d, hd⟩ := h
      cases d with
      | nil => simpa using hd.symm
      | cons c d =>
        have hx : w ++ [c] <+: p := ⟨d, by rw [← hd]; simp⟩
        have hy := hx.trans h1
        rw [List.prefix_append_right_inj] at hy
        cases rest with
        | nil => simp at hy
        | cons y rest =>
          rw [List.map_cons, List.cons_prefix_cons] at hy
          rcases h2 with h2 | ⟨x, hx1, hx2⟩
          · rw [h2] at hx; simp at hx
          · exact absurd (hx.trans hx2) (by rw [hy.1]; exact hr y (by simp) x hx1)
  rw [h0, h4 i (by rw [hp]; exact hi)]

end At
