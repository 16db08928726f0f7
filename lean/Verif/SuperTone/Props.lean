import Verif.SuperTone.Spec

/-!
# Cadences are played as they are given
-/

namespace SuperTone

variable {T : Type}

/-! ## What is still to come -/

/-- The same first `k` samples. -/
def Eqv (k : Nat) (a b : List (Option T)) : Prop := a.take k = b.take k

theorem Eqv.append {k j : Nat} (a : List (Option T)) {b c : List (Option T)} (h : Eqv j b c) (hk : k ≤ a.length + j) :
    Eqv k (a ++ b) (a ++ c) := by
  unfold Eqv at *
  rw [List.take_append, List.take_append]
  have : k - a.length ≤ j := by omega
  have h2 : b.take (k - a.length) = c.take (k - a.length) := by
    have e := congrArg (List.take (k - a.length)) h
    rwa [List.take_take, List.take_take, Nat.min_eq_left this] at e
  rw [h2]

theorem Eqv.mono {k j : Nat} {b c : List (Option T)} (h : Eqv j b c) (hk : k ≤ j) : Eqv k b c := by
  have := Eqv.append (k := k) [] h (by simpa using hk)
  simpa using this

theorem flat_length (n : Nat) (b : List (Option T)) (h : b ≠ []) : n ≤ (List.replicate n b).flatten.length := by
  have : 1 ≤ b.length := by
    cases b with
    | nil => exact absurd rfl h
    | cons => simp
  rw [List.length_flatten, List.map_replicate, List.sum_replicate_nat]
  exact Nat.le_mul_of_pos_right n this

/-- One time more of what goes on for ever makes no difference. -/
theorem endless (n k : Nat) (hk : k ≤ n) (b x : List (Option T)) (h : b ≠ []) :
    Eqv k (b ++ ((List.replicate n b).flatten ++ x)) ((List.replicate n b).flatten ++ x) := by
  have e : b ++ ((List.replicate n b).flatten ++ x) = (List.replicate n b).flatten ++ (b ++ x) := by
    rw [← List.append_assoc, ← List.append_assoc]
    have h1 : b ++ (List.replicate n b).flatten = (List.replicate (n + 1) b).flatten := by
      rw [List.replicate_succ, List.flatten_cons]
    have h2 : (List.replicate n b).flatten ++ b = (List.replicate (n + 1) b).flatten := by
      rw [List.replicate_succ', List.flatten_append, List.flatten_singleton]
    rw [h1, h2]
  rw [e]
  exact Eqv.append (j := 0) _ (by simp [Eqv]) (by have := flat_length n b h; omega)

theorem sound_eq (n : Nat) (s : Step T) :
    sound n s = (List.replicate (if s.cycles = 0 then n else s.cycles) (body n s)).flatten := by
  cases s
  rw [sound]; rfl

theorem flat_nil (n : Nat) (b : List (Option T)) : (List.replicate n b).flatten = [] ↔ n = 0 ∨ b = [] := by
  constructor
  · intro h
    by_cases hb : b = []
    · exact Or.inr hb
    · have := flat_length n b hb
      rw [h] at this
      exact Or.inl (by simpa using this)
  · rintro (rfl | rfl)
    · rfl
    · simp

theorem own_nil (n : Nat) (hn : 0 < n) (t : Option T) (l : Nat) (h : own n t l = []) : own 1 t l = [] := by
  unfold own at *
  split
  · rename_i c
    rw [if_pos c] at h
    simp at h; omega
  · rename_i c
    rw [if_neg c] at h
    exact h

mutual
theorem sound_nil (n : Nat) (hn : 0 < n) : ∀ s : Step T, sound n s = [] → sound 1 s = []
  | .mk t l c nest, h => by
    rw [sound, flat_nil] at h
    rw [sound, flat_nil]
    rcases h with h | h
    · left
      split at h
      · omega
      · rename_i hc; rw [if_neg hc]; exact h
    · right
      rw [List.append_eq_nil_iff] at h ⊢
      exact ⟨own_nil n hn t l h.1, sounds_nil n hn nest h.2⟩
theorem sounds_nil (n : Nat) (hn : 0 < n) : ∀ l : List (Step T), sounds n l = [] → sounds 1 l = []
  | [], _ => by rw [sounds]
  | s :: r, h => by
    rw [sounds, List.append_eq_nil_iff] at h
    rw [sounds, List.append_eq_nil_iff]
    exact ⟨sound_nil n hn s h.1, sounds_nil n hn r h.2⟩
end

theorem fine_body (s : Step T) (h : s.Fine) (hc : s.cycles = 0) (n : Nat) (hn : 0 < n) : body n s ≠ [] := by
  cases s with
  | mk t l c nest =>
    rw [Step.Fine] at h
    intro hb
    unfold body at hb
    rw [List.append_eq_nil_iff] at hb
    refine h.1 hc ?_
    rw [List.append_eq_nil_iff]
    exact ⟨own_nil n hn t l hb.1, sounds_nil n hn nest hb.2⟩

def after (n : Nat) : List (Frame T) → List (Option T)
  | [] => []
  | f :: below => (List.replicate (if f.cur.cycles = 0 then n else f.left - 1) (body n f.cur)).flatten ++
      (sounds n f.next ++ after n below)

def ownFrom (n pos : Nat) (s : Step T) : List (Option T) :=
  if s.tone.isSome ∧ s.length = 0 then List.replicate n s.tone else List.replicate (s.length - pos) s.tone

def rest (n pos : Nat) : List (Frame T) → List (Option T)
  | [] => []
  | f :: below => ownFrom n pos f.cur ++ (sounds n f.cur.nest ++ after n (f :: below))

def Valid : List (Frame T) → Prop
  | [] => True
  | f :: below => f.cur.Fine ∧ Fines f.next ∧ f.cur.depth + below.length ≤ 4 ∧ depths f.next + below.length ≤ 4 ∧ Valid below

theorem rest_zero (n : Nat) (f : Frame T) (below : List (Frame T)) :
    rest n 0 (f :: below) = body n f.cur ++ after n (f :: below) := by
  rw [rest, ← List.append_assoc]; rfl

theorem eqv_rfl {k : Nat} {a : List (Option T)} : Eqv k a a := rfl

theorem start_eqv (n k : Nat) (hk : k ≤ n) (s : Step T) (r : List (Step T)) (below : List (Frame T)) (h : s.Fine) :
    Eqv k (rest n 0 (⟨s, r, s.cycles⟩ :: below)) (sound n s ++ (sounds n r ++ after n below)) := by
  rw [rest_zero, after, sound_eq]
  simp only
  by_cases hc : s.cycles = 0
  · simp only [if_pos hc]
    rcases Nat.eq_zero_or_pos k with rfl | hp
    · simp [Eqv]
    · exact endless n k hk _ _ (fine_body s h hc n (by omega))
  · simp only [if_neg hc]
    obtain ⟨c, hc'⟩ : ∃ c, s.cycles = c + 1 := ⟨s.cycles - 1, by omega⟩
    rw [hc', Nat.add_sub_cancel, List.replicate_succ, List.flatten_cons, List.append_assoc]
    exact eqv_rfl

theorem finish_eqv (n k : Nat) (hk : k ≤ n) : ∀ st : List (Frame T), Valid st → Eqv k (rest n 0 (finish st)) (after n st) := by
  intro st
  induction st with
  | nil => intro _; exact eqv_rfl
  | cons f below ih =>
    intro h
    obtain ⟨h1, h2, h3, h4, h5⟩ := h
    rw [finish]
    split
    · rename_i hc
      rw [rest_zero, after, if_pos hc]
      rcases Nat.eq_zero_or_pos k with rfl | hp
      · simp [Eqv]
      · exact endless n k hk _ _ (fine_body _ h1 hc n (by omega))
    · rename_i hc
      split
      · rename_i hl
        rw [rest_zero, after, after]
        simp only [if_neg hc]
        obtain ⟨c, hc'⟩ : ∃ c, f.left = c + 2 := ⟨f.left - 2, by omega⟩
        have e1 : f.left - 1 - 1 = c := by omega
        have e2 : f.left - 1 = c + 1 := by omega
        rw [e1, e2, List.replicate_succ, List.flatten_cons, List.append_assoc]
        exact eqv_rfl
      · rename_i hl
        rw [after, if_neg hc]
        have e : f.left - 1 = 0 := by omega
        rw [e, List.replicate_zero, List.flatten_nil, List.nil_append]
        rcases hn : f.next with _ | ⟨s, r⟩
        · rw [sounds, List.nil_append]
          exact ih h5
        · rw [sounds, List.append_assoc]
          rw [hn, Fines] at h2
          exact start_eqv n k hk s r below h2.1

theorem move_eqv (n k : Nat) (hk : k ≤ n) (f : Frame T) (below : List (Frame T)) (h : Valid (f :: below)) :
    Eqv k (rest n 0 (move (f :: below))) (sounds n f.cur.nest ++ after n (f :: below)) := by
  have hv := h
  obtain ⟨h1, h2, h3, h4, h5⟩ := h
  rw [move]
  rcases hn : f.cur.nest with _ | ⟨s, r⟩
  · rw [if_neg (by simp), sounds, List.nil_append]
    exact finish_eqv n k hk _ hv
  · have hd : below.length < 3 ∧ s.Fine := by
      rcases hcur : f.cur with ⟨t, l, c, nest⟩
      rw [hcur] at hn h1 h3
      simp only [Step.nest] at hn
      subst hn
      rw [Step.depth, depths] at h3
      rw [Step.Fine, Fines] at h1
      refine ⟨?_, h1.2.1⟩
      have : 1 ≤ s.depth := by cases s; rw [Step.depth]; omega
      omega
    rw [if_pos (by simp), if_pos hd.1, start, sounds, List.append_assoc]
    exact start_eqv n k hk s r (f :: below) hd.2

theorem start_valid (l : List (Step T)) (below : List (Frame T)) (h1 : Fines l) (h2 : depths l + below.length ≤ 4)
    (h3 : Valid below) : Valid (start l below) := by
  cases l with
  | nil => exact h3
  | cons s r =>
    rw [Fines] at h1
    rw [depths] at h2
    exact ⟨h1.1, h1.2, by simp only; omega, by simp only; omega, h3⟩

theorem finish_valid : ∀ st : List (Frame T), Valid st → Valid (finish st) := by
  intro st
  induction st with
  | nil => intro h; exact h
  | cons f below ih =>
    intro h
    have hv := h
    obtain ⟨h1, h2, h3, h4, h5⟩ := h
    rw [finish]
    split
    · exact hv
    · split
      · exact ⟨h1, h2, h3, h4, h5⟩
      · rcases hn : f.next with _ | ⟨s, r⟩
        · exact ih h5
        · exact start_valid (s :: r) below (hn ▸ h2) (hn ▸ h4) h5

theorem nest_ok (s : Step T) (h : s.Fine) : Fines s.nest ∧ s.depth = 1 + depths s.nest := by
  cases s
  rw [Step.Fine] at h
  exact ⟨h.2, by rw [Step.depth]; rfl⟩

theorem move_valid (st : List (Frame T)) (h : Valid st) : Valid (move st) := by
  cases st with
  | nil => exact h
  | cons f below =>
    rw [move]
    split
    · split
      · refine start_valid _ _ (nest_ok _ h.1).1 ?_ h
        have := (nest_ok _ h.1).2
        have := h.2.2.1
        rw [List.length_cons]; omega
      · exact h
    · exact finish_valid _ h

theorem tx_part : ∀ (fuel : Nat) (s : State T) (k : Nat) (s' : State T) (o : List (Option T)), Valid s.stack →
    tx fuel s k = some (s', o) → Valid s'.stack ∧ (o.length = k ∨ (o.length ≤ k ∧ s'.stack = [])) ∧
      ∀ j n, k + j ≤ n → Eqv (k + j) (o ++ rest n s'.pos s'.stack) (rest n s.pos s.stack) := by
  intro fuel
  induction fuel with
  | zero => intro s k s' o _ h; simp [tx] at h
  | succ fuel ih =>
    intro s k s' o hv h
    obtain ⟨st, pos⟩ := s
    cases st with
    | nil =>
      simp only [tx, Option.some.injEq, Prod.mk.injEq] at h
      obtain ⟨rfl, rfl⟩ := h
      exact ⟨hv, Or.inr ⟨by simp, rfl⟩, fun j n _ => eqv_rfl⟩
    | cons f below =>
      rw [tx] at h
      simp only at h
      split at h
      · rename_i hk
        simp only [Option.some.injEq, Prod.mk.injEq] at h
        obtain ⟨rfl, rfl⟩ := h
        exact ⟨hv, Or.inl (by simp [hk]), fun j n _ => eqv_rfl⟩
      · split at h
        · rename_i hc
          simp only [Option.some.injEq, Prod.mk.injEq] at h
          obtain ⟨rfl, rfl⟩ := h
          refine ⟨hv, Or.inl (by simp), fun j n hn => ?_⟩
          simp only [rest, ownFrom, if_pos hc]
          unfold Eqv
          rw [← List.append_assoc, List.replicate_append_replicate, List.take_append_of_le_length (by simp; omega),
            List.take_append_of_le_length (by simp; omega), List.take_replicate, List.take_replicate]
          congr 1; omega
        · rename_i hc
          split at h
          · rename_i hl
            simp only [Option.some.injEq, Prod.mk.injEq] at h
            obtain ⟨rfl, rfl⟩ := h
            refine ⟨hv, Or.inl (by simp), fun j n hn => ?_⟩
            simp only [rest, ownFrom, if_neg hc]
            rw [← List.append_assoc, List.replicate_append_replicate]
            have : k + (f.cur.length - (pos + k)) = f.cur.length - pos := by omega
            rw [this]
            exact eqv_rfl
          · rename_i hl
            rw [Option.map_eq_some_iff] at h
            obtain ⟨⟨s2, o2⟩, h1, h2⟩ := h
            rw [Prod.mk.injEq] at h2
            obtain ⟨rfl, rfl⟩ := h2
            obtain ⟨g1, g2, g3⟩ := ih _ _ _ _ (move_valid _ hv) h1
            refine ⟨g1, ?_, fun j n hn => ?_⟩
            · simp only [List.length_append, List.length_replicate]
              rcases g2 with g | g
              · left; omega
              · right; exact ⟨by omega, g.2⟩
            · simp only [rest, ownFrom, if_neg hc, List.append_assoc]
              refine Eqv.append (j := k - (f.cur.length - pos) + j) _ ?_ (by rw [List.length_replicate]; omega)
              exact (g3 j n (by omega)).trans (move_eqv n _ (by omega) f below hv)

/-! ## The loop ends -/

inductive Soon : List (Frame T) → Prop where
  | stop : Soon []
  | now (f below) : own 1 f.cur.tone f.cur.length ≠ [] → Soon (f :: below)
  | later (f below) : Soon (move (f :: below)) → Soon (f :: below)

mutual
theorem soon_frame : ∀ (s : Step T) (r : List (Step T)) (left : Nat) (below : List (Frame T)), s.Fine →
    s.depth + below.length ≤ 4 → (body 1 s ≠ [] ∨ Soon (finish (⟨s, r, left⟩ :: below))) → Soon (⟨s, r, left⟩ :: below)
  | .mk t l c nest, r, left, below, h1, h2, h3 => by
    by_cases ho : own 1 t l = []
    · apply Soon.later
      rcases hn : nest with _ | ⟨s', r'⟩
      · subst hn
        rw [move]
        rw [if_neg (by simp [Step.nest])]
        rcases h3 with h3 | h3
        · exfalso
          apply h3
          simp [body, Step.tone, Step.length, Step.nest, ho, sounds]
        · exact h3
      · rw [Step.Fine] at h1
        rw [Step.depth] at h2
        have hd : 1 ≤ depths nest := by
          rw [hn, depths]
          have : 1 ≤ s'.depth := by cases s'; rw [Step.depth]; omega
          omega
        rw [move]
        rw [← hn, if_pos (by simp [Step.nest, hn]), if_pos (by omega)]
        refine soon_start nest _ (by rw [hn]; simp) h1.2 (by rw [List.length_cons]; omega) ?_
        rcases h3 with h3 | h3
        · left
          intro h
          apply h3
          simp [body, Step.tone, Step.length, Step.nest, ho, h]
        · exact Or.inr h3
    · exact Soon.now _ _ ho
theorem soon_start : ∀ (l : List (Step T)) (below : List (Frame T)), l ≠ [] → Fines l → depths l + below.length ≤ 4 →
    (sounds 1 l ≠ [] ∨ Soon (finish below)) → Soon (start l below)
  | [], _, h, _, _, _ => absurd rfl h
  | s :: r, below, _, h1, h2, h3 => by
    rw [Fines] at h1
    rw [depths] at h2
    rw [start]
    have key : ∀ left, body 1 s = [] → Soon (finish (⟨s, r, left⟩ :: below)) := by
      intro left hb
      have hc : s.cycles ≠ 0 := fun hc => fine_body s h1.1 hc 1 (by omega) hb
      have hs : sound 1 s = [] := by rw [sound_eq, hb, flat_nil]; exact Or.inr rfl
      induction left with
      | zero =>
        rw [finish]
        simp only [if_neg hc]
        rw [if_neg (by omega)]
        rcases hr : r with _ | ⟨s2, r2⟩
        · rcases h3 with h3 | h3
          · exfalso; apply h3; rw [sounds, hs, hr, sounds]; rfl
          · exact h3
        · have := soon_start r below (by rw [hr]; simp) h1.2 (by omega)
            (h3.imp (fun h => by rw [sounds, hs] at h; exact h) id)
          rw [hr] at this
          exact this
      | succ left ih =>
        by_cases hl : left + 1 - 1 > 0
        · have e : finish (⟨s, r, left + 1⟩ :: below) = ⟨s, r, left⟩ :: below := by
            rw [finish]
            simp only [if_neg hc]
            rw [if_pos hl]; rfl
          rw [e]
          exact soon_frame s r left below h1.1 (by omega) (Or.inr ih)
        · have e : finish (⟨s, r, left + 1⟩ :: below) = finish (⟨s, r, left⟩ :: below) := by
            rw [finish, finish]
            simp only [if_neg hc]
            rw [if_neg hl, if_neg (by omega)]
          rw [e]
          exact ih
    refine soon_frame s r _ below h1.1 (by omega) ?_
    by_cases hb : body 1 s = []
    · exact Or.inr (key _ hb)
    · exact Or.inl hb
end

theorem soon_finish : ∀ st : List (Frame T), Valid st → Soon (finish st) := by
  intro st
  induction st with
  | nil => intro _; exact Soon.stop
  | cons f below ih =>
    intro h
    obtain ⟨s, r, left⟩ := f
    obtain ⟨h1, h2, h3, h4, h5⟩ := h
    simp only at h1 h2 h3 h4
    by_cases hc : s.cycles = 0
    · rw [finish, if_pos hc]
      exact soon_frame s r left below h1 h3 (Or.inl (fine_body s h1 hc 1 (by omega)))
    · induction left with
      | zero =>
        rw [finish]
        simp only [if_neg hc]
        rw [if_neg (by omega)]
        rcases hr : r with _ | ⟨s2, r2⟩
        · exact ih h5
        · have := soon_start r below (by rw [hr]; simp) h2 h4 (Or.inr (ih h5))
          rw [hr] at this
          exact this
      | succ left ihl =>
        by_cases hl : left + 1 - 1 > 0
        · have e : finish (⟨s, r, left + 1⟩ :: below) = ⟨s, r, left⟩ :: below := by
            rw [finish]
            simp only [if_neg hc]
            rw [if_pos hl]; rfl
          rw [e]
          exact soon_frame s r left below h1 h3 (Or.inr ihl)
        · have e : finish (⟨s, r, left + 1⟩ :: below) = finish (⟨s, r, left⟩ :: below) := by
            rw [finish, finish]
            simp only [if_neg hc]
            rw [if_neg hl, if_neg (by omega)]
          rw [e]
          exact ihl

theorem soon_valid (st : List (Frame T)) (h : Valid st) : Soon st := by
  cases st with
  | nil => exact Soon.stop
  | cons f below =>
    obtain ⟨s, r, left⟩ := f
    exact soon_frame s r left below h.1 h.2.2.1 (Or.inr (soon_finish _ h))

theorem tx_ends : ∀ (n : Nat) (st : List (Frame T)), Valid st → ∀ pos, ∃ fuel, (tx fuel ⟨st, pos⟩ n).isSome := by
  have step : ∀ (f : Frame T) (below : List (Frame T)) (pos n : Nat),
      (∃ fuel, (tx fuel ⟨move (f :: below), 0⟩ (n - (f.cur.length - pos))).isSome) → ∃ fuel, (tx fuel ⟨f :: below, pos⟩ n).isSome := by
    rintro f below pos n ⟨fuel, h⟩
    refine ⟨fuel + 1, ?_⟩
    rw [tx]
    simp only
    split
    · rfl
    · split
      · rfl
      · split
        · rfl
        · rw [Option.isSome_map]; exact h
  have zero : ∀ n : Nat, ∀ st : List (Frame T), Valid st → ∃ fuel, (tx fuel ⟨st, 0⟩ n).isSome := by
    intro n
    induction n using Nat.strongRecOn with
    | ind n ih =>
      intro st hv
      induction soon_valid st hv with
      | stop => exact ⟨1, rfl⟩
      | now f below h =>
        by_cases hz : f.cur.length = 0 ∨ n = 0
        · refine ⟨1, ?_⟩
          rw [tx]
          simp only
          split
          · rfl
          · have ht : f.cur.tone.isSome ∧ f.cur.length = 0 := by
              have hl : f.cur.length = 0 := by omega
              refine ⟨?_, hl⟩
              refine Decidable.byContradiction fun hx => ?_
              apply h
              unfold own
              rw [if_neg (fun c => hx c.1), hl]; rfl
            rw [if_pos ht]; rfl
        · exact step f below 0 n (ih _ (by omega) _ (move_valid _ hv))
      | later f below _ ihs =>
        apply step
        by_cases hz : f.cur.length = 0 ∨ n = 0
        · have : n - (f.cur.length - 0) = n := by omega
          rw [this]
          exact ihs (move_valid _ hv)
        · exact ih _ (by omega) _ (move_valid _ hv)
  intro n st hv pos
  cases st with
  | nil => exact ⟨1, rfl⟩
  | cons f below => exact step f below pos n (zero _ _ (move_valid _ hv))

theorem tx_more : ∀ (fuel : Nat) (s : State T) (n : Nat) r, tx fuel s n = some r → tx (fuel + 1) s n = some r := by
  intro fuel
  induction fuel with
  | zero => intro s n r h; simp [tx] at h
  | succ fuel ih =>
    intro s n r h
    rw [tx] at h ⊢
    split
    · rename_i hs; simpa [hs] using h
    · rename_i f below hs
      rw [hs] at h
      simp only at h
      split
      · rename_i c; rw [if_pos c] at h; exact h
      · rename_i c; rw [if_neg c] at h
        split
        · rename_i c; rw [if_pos c] at h; rw [← h, hs]
        · rename_i c; rw [if_neg c] at h
          split
          · rename_i c; rw [if_pos c] at h; rw [← h, hs]
          · rename_i c; rw [if_neg c] at h
            rw [Option.map_eq_some_iff] at h
            obtain ⟨x, h1, h2⟩ := h
            rw [ih _ _ _ h1, ← h2]; rfl

theorem tx_le (a b : Nat) (hab : a ≤ b) (s : State T) (n : Nat) (r) (h : tx a s n = some r) : tx b s n = some r := by
  obtain ⟨c, rfl⟩ := Nat.le.dest hab
  clear hab
  induction c with
  | zero => exact h
  | succ c ih => exact tx_more _ _ _ _ ih

theorem calls_part : ∀ (l : List Nat) (s : State T), Valid s.stack → ∃ fuel s' o,
    (∀ fuel' ≥ fuel, calls fuel' s l = some (s', o)) ∧
    ∀ n ≥ l.sum, ∀ x, Eqv l.sum x (rest n s.pos s.stack) → o = pieces x l := by
  intro l
  induction l with
  | nil => intro s _; exact ⟨0, s, [], fun _ _ => rfl, fun _ _ _ _ => rfl⟩
  | cons k l ih =>
    intro s hv
    obtain ⟨f1, h1⟩ := tx_ends k s.stack hv s.pos
    obtain ⟨⟨s1, o1⟩, h1⟩ := Option.isSome_iff_exists.mp h1
    obtain ⟨p1, p2, p3⟩ := tx_part f1 s k s1 o1 hv h1
    obtain ⟨f2, s2, o2, q1, q2⟩ := ih s1 p1
    refine ⟨max f1 f2, s2, o1 :: o2, ?_, ?_⟩
    · intro f' hf
      rw [calls, tx_le f1 f' (by omega) s k _ h1, Option.bind_some, q1 f' (by omega)]; rfl
    · intro n hn x hx
      rw [List.sum_cons] at hn hx
      have e : Eqv (k + l.sum) x (o1 ++ rest n s1.pos s1.stack) := hx.trans (p3 l.sum n hn).symm
      have hr : o1.length ≤ k ∧ (o1.length < k → rest n s1.pos s1.stack = []) := by
        rcases p2 with h | ⟨h, h'⟩
        · exact ⟨by omega, fun _ => by omega⟩
        · exact ⟨h, fun _ => by rw [h']; rfl⟩
      rw [pieces]
      congr 1
      · have := e.mono (k := k) (by omega)
        unfold Eqv at this
        rw [this]
        by_cases hk : o1.length < k
        · rw [hr.2 hk, List.append_nil, List.take_of_length_le hr.1]
        · rw [List.take_append_of_le_length (by omega), List.take_of_length_le hr.1]
      · refine q2 n (by omega) _ ?_
        unfold Eqv at e ⊢
        rw [List.take_drop, e, ← List.take_drop]
        congr 1
        by_cases hk : o1.length < k
        · rw [hr.2 hk, List.append_nil, List.drop_eq_nil_of_le hr.1]
        · rw [List.drop_append_of_le_length (by omega), List.drop_eq_nil_of_le hr.1, List.nil_append]

/-- C99: a cadence of at most four levels, in which whatever is repeated for ever has some sample, is played as it is
given, however the samples are asked for.  Every call returns, and gives all the samples which were asked for until the
cadence is over. -/
theorem cadence (steps : List (Step T)) (h1 : Fines steps) (h2 : depths steps ≤ 4) (l : List Nat) :
    ∃ fuel s', ∀ fuel' ≥ fuel, calls fuel' (init steps) l = some (s', pieces (sounds l.sum steps) l) := by
  have hv : Valid (init steps).stack := start_valid steps [] h1 (by simpa using h2) trivial
  obtain ⟨fuel, s', o, q1, q2⟩ := calls_part l (init steps) hv
  refine ⟨fuel, s', fun f' hf => ?_⟩
  rw [q1 f' hf, q2 l.sum (Nat.le_refl _) (sounds l.sum steps)]
  cases steps with
  | nil => rw [sounds]; exact eqv_rfl
  | cons s r =>
    rw [Fines] at h1
    have := start_eqv l.sum l.sum (Nat.le_refl _) s r [] h1.1
    rw [after, List.append_nil] at this
    rw [sounds]
    exact this.symm

/-- Twice a tone of two samples and a pause of one, then a second tone without an end. -/
example : let c : List (Step Nat) := [.mk none 0 2 [.mk (some 1) 2 1 [], .mk none 1 1 []], .mk (some 2) 0 1 []]
    Fines c ∧ depths c ≤ 4 ∧
    (calls 20 (init c) [1, 0, 4, 3, 2]).map (fun r => r.2) = some [[some 1], [], [some 1, none, some 1, some 1],
      [none, some 2, some 2], [some 2, some 2]] := by
  refine ⟨?_, by decide +kernel, by decide +kernel⟩
  simp [Fines, Step.Fine]

end SuperTone
