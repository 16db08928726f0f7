import Verif.Calendar.Text

/-!
# The text of a zone is read as it is meant

The relations say what the text of a zone is: names, offsets and rules as POSIX has them.
-/

namespace Calendar
namespace Spec

/-- The text of a number, which may have zeros before it. -/
def Num (n : Nat) (l : List Nat) : Prop :=
  l ≠ [] ∧ (∀ c ∈ l, 48 ≤ c ∧ c ≤ 57) ∧ l.foldl (fun a c => a*10 + (c - 48)) 0 = n

/-- Hours, minutes and seconds, of which the last may be left out. -/
inductive Secs : Int → List Nat → Prop
  | h {h a} : Num h a → h ≤ 167 → Secs (h*3600) a
  | hm {h a m b} : Num h a → h ≤ 167 → Num m b → m ≤ 59 → Secs (h*3600 + m*60) (a ++ 58 :: b)
  | hms {h a m b s c} : Num h a → h ≤ 167 → Num m b → m ≤ 59 → Num s c → s ≤ 60 →
      Secs (h*3600 + m*60 + s) (a ++ 58 :: (b ++ 58 :: c))

/-- An offset, with a sign or without. -/
inductive Offset : Int → List Nat → Prop
  | plain {n a} : Secs n a → Offset n a
  | plus {n a} : Secs n a → Offset n (43 :: a)
  | minus {n a} : Secs n a → Offset (-n) (45 :: a)

/-- The day of a rule: `Jn`, `n` and `Mm.w.d`. -/
inductive DayText : Rule → List Nat → Prop
  | julian {n : Nat} {a} : Num n a → 1 ≤ n → n ≤ 365 → DayText (.julian n) (74 :: a)
  | day {n : Nat} {a} : Num n a → n ≤ 365 → DayText (.day n) a
  | month {m w d : Nat} {a b c} : Num m a → 1 ≤ m → m ≤ 12 → Num w b → 1 ≤ w → w ≤ 5 → Num d c → d ≤ 6 →
      DayText (.month m w d) (77 :: (a ++ 46 :: (b ++ 46 :: c)))

/-- A rule: its time is two o'clock if it is left out. -/
inductive RuleText : Rule → Int → List Nat → Prop
  | short {r a} : DayText r a → RuleText r 7200 a
  | long {r t a b} : DayText r a → Secs t b → RuleText r t (a ++ 47 :: b)

/-- A name: at least three characters, none of which is a digit, a comma, a sign or a colon. -/
def Name (l : List Nat) : Prop := 3 ≤ l.length ∧ l.length ≤ 254 ∧ ∀ c ∈ l, ¬ (48 ≤ c ∧ c ≤ 57) ∧ c ≠ 44 ∧ c ≠ 45 ∧ c ≠ 43 ∧ c ≠ 58

/-- A zone: an offset is an hour before the standard one if it is left out. -/
inductive ZoneText : Zone → List Nat → Prop
  | short {n s o m a ta x b tb y} : Name n → Offset s o → Name m → RuleText a ta x → RuleText b tb y →
      ZoneText ⟨s, s - 3600, a, ta, b, tb⟩ (n ++ (o ++ (m ++ 44 :: (x ++ 44 :: y))))
  | long {n s o m d p a ta x b tb y} : Name n → Offset s o → Name m → Offset d p → RuleText a ta x → RuleText b tb y →
      ZoneText ⟨s, d, a, ta, b, tb⟩ (n ++ (o ++ (m ++ (p ++ 44 :: (x ++ 44 :: y)))))

/-- A zone whose rules are left out: from the first Sunday of April to the last of October, at two o'clock. -/
inductive BareText : Zone → List Nat → Prop
  | short {n s o m} : Name n → Offset s o → Name m →
      BareText ⟨s, s - 3600, .month 4 1 0, 7200, .month 10 5 0, 7200⟩ (n ++ (o ++ m))
  | long {n s o m d p} : Name n → Offset s o → Name m → Offset d p →
      BareText ⟨s, d, .month 4 1 0, 7200, .month 10 5 0, 7200⟩ (n ++ (o ++ (m ++ p)))

end Spec

open Spec

theorem digit_iff (c : Nat) : digit c = true ↔ 48 ≤ c ∧ c ≤ 57 := by simp [digit]

/-- What follows does not go on with a character. -/
def Ends (P : Nat → Prop) (l : List Nat) : Prop := ∀ c, l.head? = some c → ¬ P c

theorem foldl_ge (l : List Nat) : ∀ a, a ≤ l.foldl (fun a c => a*10 + (c - 48)) a := by
  induction l with
  | nil => intro a; exact Nat.le_refl _
  | cons c l ih => intro a; have := ih (a*10 + (c - 48)); simp only [List.foldl_cons]; omega

theorem numLoop_spec (max : Nat) (rest : List Nat) (hr : Ends (fun c => 48 ≤ c ∧ c ≤ 57) rest) : ∀ (l : List Nat) (acc : Nat),
    (∀ c ∈ l, 48 ≤ c ∧ c ≤ 57) → l.foldl (fun a c => a*10 + (c - 48)) acc ≤ max →
    numLoop max acc (l ++ rest) = some (l.foldl (fun a c => a*10 + (c - 48)) acc, rest) := by
  intro l
  induction l with
  | nil =>
    intro acc _ _
    cases rest with
    | nil => rfl
    | cons c r =>
      have : ¬ digit c = true := fun q => hr c rfl ((digit_iff c).1 q)
      simp only [List.nil_append, numLoop]
      rw [if_neg this]; rfl
  | cons c l ih =>
    intro acc h hm
    simp only [List.foldl_cons] at hm ⊢
    simp only [List.cons_append, numLoop]
    have hg := foldl_ge l (acc*10 + (c - 48))
    rw [if_pos ((digit_iff c).2 (h c (by simp))), if_neg (by omega)]
    exact ih _ (fun d hd => h d (by simp [hd])) hm

theorem getNum_spec {n : Nat} {l rest : List Nat} (h : Num n l) (hr : Ends (fun c => 48 ≤ c ∧ c ≤ 57) rest) (min max : Nat)
    (h1 : min ≤ n) (h2 : n ≤ max) : getNum min max (l ++ rest) = some (n, rest) := by
  obtain ⟨hne, hd, hv⟩ := h
  cases l with
  | nil => exact absurd rfl hne
  | cons c l =>
    have hl := numLoop_spec max rest hr (c :: l) 0 hd (by omega)
    rw [hv] at hl
    unfold getNum
    simp only [List.cons_append] at hl ⊢
    have hc := (digit_iff c).2 (hd c (by simp))
    rw [hc, hl]
    simp only [Bool.not_true, Bool.false_eq_true, if_false, Option.bind_some]
    rw [if_neg (by omega)]

theorem ends_cons {P : Nat → Prop} {c : Nat} {l : List Nat} (h : ¬ P c) : Ends P (c :: l) := by
  intro d hd
  simp at hd
  subst hd
  exact h

theorem Ends.mono {P Q : Nat → Prop} {l : List Nat} (h : Ends P l) (hq : ∀ c, Q c → P c) : Ends Q l := fun c hc q => h c hc (hq c q)

/-- What may follow a time. -/
def AfterSecs (c : Nat) : Prop := (48 ≤ c ∧ c ≤ 58)

theorem getSecs_spec {n : Int} {l rest : List Nat} (h : Secs n l) (hr : Ends AfterSecs rest) : getSecs (l ++ rest) = some (n, rest) := by
  have hd : Ends (fun c => 48 ≤ c ∧ c ≤ 57) rest := hr.mono fun c q => ⟨q.1, by omega⟩
  have h58 : ∀ r, rest ≠ 58 :: r := by
    intro r e; subst e; exact hr 58 rfl ⟨by omega, by omega⟩
  have c58 : ∀ l, Ends (fun c => 48 ≤ c ∧ c ≤ 57) (58 :: l) := fun l => ends_cons (by omega)
  cases h with
  | h ha hh =>
    unfold getSecs
    rw [getNum_spec ha hd 0 167 (by omega) hh]
    simp only [Option.bind_some]
  | hm ha hh hb hm =>
    unfold getSecs
    rw [List.append_assoc, List.cons_append, getNum_spec ha (c58 _) 0 167 (by omega) hh]
    simp only [Option.bind_some]
    rw [getNum_spec hb hd 0 59 (by omega) hm]
    simp only [Option.bind_some]
  | hms ha hh hb hm hc hs =>
    unfold getSecs
    rw [List.append_assoc, List.cons_append, List.append_assoc, List.cons_append, getNum_spec ha (c58 _) 0 167 (by omega) hh]
    simp only [Option.bind_some]
    rw [getNum_spec hb (c58 _) 0 59 (by omega) hm]
    simp only [Option.bind_some]
    rw [getNum_spec hc hd 0 60 (by omega) hs]
    rfl

theorem num_head {n : Nat} {l : List Nat} (h : Num n l) : ∃ c r, l = c :: r ∧ 48 ≤ c ∧ c ≤ 57 := by
  obtain ⟨hne, hd, _⟩ := h
  cases l with
  | nil => exact absurd rfl hne
  | cons c r => exact ⟨c, r, rfl, hd c (by simp)⟩

theorem secs_head {n : Int} {l : List Nat} (h : Secs n l) : ∃ c r, l = c :: r ∧ 48 ≤ c ∧ c ≤ 57 := by
  cases h with
  | h ha _ => exact num_head ha
  | hm ha _ _ _ => obtain ⟨c, r, e, q⟩ := num_head ha; exact ⟨c, _, by rw [e]; rfl, q⟩
  | hms ha _ _ _ _ _ => obtain ⟨c, r, e, q⟩ := num_head ha; exact ⟨c, _, by rw [e]; rfl, q⟩

theorem getOffset_spec {n : Int} {l rest : List Nat} (h : Offset n l) (hr : Ends AfterSecs rest) :
    getOffset (l ++ rest) = some (n, rest) := by
  cases h with
  | plain hs =>
    obtain ⟨c, r, e, q⟩ := secs_head hs
    have := getSecs_spec hs hr
    subst e
    simp only [List.cons_append] at this ⊢
    unfold getOffset
    split
    · rename_i heq; simp at heq; omega
    · rename_i heq; simp at heq; omega
    · exact this
  | plus hs => exact getSecs_spec hs hr
  | minus hs =>
    have := getSecs_spec hs hr
    simp only [List.cons_append, getOffset, this]
    rfl

theorem offset_head {n : Int} {l : List Nat} (h : Offset n l) : ∃ c r, l = c :: r ∧ ((48 ≤ c ∧ c ≤ 57) ∨ c = 45 ∨ c = 43) := by
  cases h with
  | plain hs => obtain ⟨c, r, e, q⟩ := secs_head hs; exact ⟨c, r, e, Or.inl q⟩
  | plus hs => exact ⟨43, _, rfl, Or.inr (Or.inr rfl)⟩
  | minus hs => exact ⟨45, _, rfl, Or.inr (Or.inl rfl)⟩

theorem getDay_spec {r : Rule} {l rest : List Nat} (h : DayText r l) (hr : Ends (fun c => 48 ≤ c ∧ c ≤ 57) rest) :
    getDay (l ++ rest) = some (r, rest) := by
  have c46 : ∀ l, Ends (fun c => 48 ≤ c ∧ c ≤ 57) (46 :: l) := fun l => ends_cons (by omega)
  cases h with
  | julian ha h1 h2 =>
    simp only [List.cons_append, getDay, if_true]
    rw [getNum_spec ha hr 1 365 h1 h2]
    rfl
  | day ha h2 =>
    obtain ⟨c, r, e, q⟩ := num_head ha
    have := getNum_spec ha hr 0 365 (by omega) h2
    subst e
    simp only [List.cons_append, getDay] at this ⊢
    rw [if_neg (by omega), if_neg (by omega), if_pos ((digit_iff c).2 q), this]
    rfl
  | month ha h1 h2 hb h3 h4 hc h5 =>
    simp only [List.cons_append, List.append_assoc, getDay]
    rw [if_neg (by omega), if_pos trivial, getNum_spec ha (c46 _) 1 12 h1 h2]
    simp only [Option.bind_some]
    rw [getNum_spec hb (c46 _) 1 5 h3 h4]
    simp only [Option.bind_some]
    rw [getNum_spec hc hr 0 6 (by omega) h5]
    rfl

theorem getRule_spec {r : Rule} {t : Int} {l rest : List Nat} (h : RuleText r t l) (hr : Ends (fun c => 47 ≤ c ∧ c ≤ 58) rest) :
    getRule (l ++ rest) = some (r, t, rest) := by
  have hd : Ends (fun c => 48 ≤ c ∧ c ≤ 57) rest := hr.mono fun c q => ⟨by omega, by omega⟩
  cases h with
  | short ha =>
    unfold getRule
    rw [getDay_spec ha hd]
    simp only [Option.bind_some]
    split
    · exact absurd ⟨by omega, by omega⟩ (hr 47 rfl)
    · rfl
  | long ha hb =>
    unfold getRule
    rw [List.append_assoc, List.cons_append, getDay_spec ha (ends_cons (by omega))]
    simp only [Option.bind_some]
    rw [getSecs_spec hb (hr.mono fun c q => ⟨by have := q.1; omega, q.2⟩)]
    rfl

theorem getName_spec (rest : List Nat)
    (hr : ∀ c, rest.head? = some c → (48 ≤ c ∧ c ≤ 57) ∨ c = 44 ∨ c = 45 ∨ c = 43) : ∀ l : List Nat,
    (∀ c ∈ l, ¬ (48 ≤ c ∧ c ≤ 57) ∧ c ≠ 44 ∧ c ≠ 45 ∧ c ≠ 43) → getName (l ++ rest) = (l, rest) := by
  intro l
  induction l with
  | nil =>
    intro _
    cases rest with
    | nil => rfl
    | cons c r =>
      have := hr c rfl
      simp only [List.nil_append, getName]
      rw [if_neg]
      intro ⟨a, b⟩
      have hd : ¬ (48 ≤ c ∧ c ≤ 57) := fun q => by rw [(digit_iff c).2 q] at a; cases a
      omega
  | cons c l ih =>
    intro h
    obtain ⟨a, b⟩ := h c (by simp)
    simp only [List.cons_append, getName]
    have hd : digit c = false := by
      cases hq : digit c with
      | false => rfl
      | true => exact absurd ((digit_iff c).1 hq) a
    rw [if_pos ⟨by rw [hd]; rfl, b⟩, ih fun d hd => h d (by simp [hd])]

theorem getRules_spec {s d : Int} {a b : Rule} {ta tb : Int} {x y : List Nat} (ha : RuleText a ta x) (hb : RuleText b tb y) :
    getRules s d (44 :: (x ++ 44 :: y)) = some ⟨s, d, a, ta, b, tb⟩ := by
  unfold getRules
  rw [if_neg (by simp)]
  simp only [true_or, if_true]
  rw [getRule_spec ha (ends_cons (by omega))]
  simp only [Option.bind_some]
  have := getRule_spec hb (rest := []) (by intro c h; cases h)
  rw [List.append_nil] at this
  rw [this]
  rfl

theorem name_of {l rest : List Nat} (h : Name l)
    (hr : ∀ c, rest.head? = some c → (48 ≤ c ∧ c ≤ 57) ∨ c = 44 ∨ c = 45 ∨ c = 43) : getName (l ++ rest) = (l, rest) :=
  getName_spec rest hr l fun c hc => ⟨(h.2.2 c hc).1, (h.2.2 c hc).2.1, (h.2.2 c hc).2.2.1, (h.2.2 c hc).2.2.2.1⟩

theorem name_head {l : List Nat} (h : Name l) : ∃ c r, l = c :: r ∧ ¬ AfterSecs c := by
  cases l with
  | nil => have := h.1; simp at this
  | cons c r =>
    obtain ⟨a, _, _, _, b⟩ := h.2.2 c (by simp)
    exact ⟨c, r, rfl, fun q => a ⟨q.1, by have := q.2; omega⟩⟩

theorem parse_short {n o m rest : List Nat} {s : Int} (hn : Name n) (ho : Offset s o) (hm : Name m)
    (hr : rest = [] ∨ ∃ r, rest = 44 :: r) :
    parse (n ++ (o ++ (m ++ rest))) = (getRules s (s - 3600) rest).bind fun z => some (.zone z) := by
  obtain ⟨c, r, eo, qo⟩ := offset_head ho
  obtain ⟨c', r', em, qm⟩ := name_head hm
  have h1 := name_of (rest := o ++ (m ++ rest)) hn (by subst eo; intro d hd; simp at hd; omega)
  have h2 := getOffset_spec (rest := m ++ rest) ho (by subst em; exact ends_cons qm)
  have h3 := name_of (rest := rest) hm (by
    intro d hd
    cases hr with
    | inl e => subst e; cases hd
    | inr e => obtain ⟨r, e⟩ := e; subst e; simp at hd; omega)
  have l1 := hn.1; have l2 := hn.2.1; have l3 := hm.1; have l4 := hm.2.1
  unfold parse
  rw [h1]
  simp only
  rw [if_neg (by omega), if_neg (by subst eo; simp), h2]
  simp only [Option.bind_some]
  rw [if_neg (by subst em; simp), h3]
  simp only
  rw [if_neg (by omega)]
  have hb : ¬ n.length + 1 + (m.length + 1) > 512 := by omega
  simp only [hb, if_false]
  cases hr with
  | inl e => subst e; rfl
  | inr e => obtain ⟨r, e⟩ := e; subst e; rfl

theorem parse_long {n o m p rest : List Nat} {s d : Int} (hn : Name n) (ho : Offset s o) (hm : Name m) (hp : Offset d p)
    (hr : Ends AfterSecs rest) :
    parse (n ++ (o ++ (m ++ (p ++ rest)))) = (getRules s d rest).bind fun z => some (.zone z) := by
  obtain ⟨c, r, eo, qo⟩ := offset_head ho
  obtain ⟨c', r', em, qm⟩ := name_head hm
  obtain ⟨e, t, ep, qp⟩ := offset_head hp
  have h1 := name_of (rest := o ++ (m ++ (p ++ rest))) hn (by subst eo; intro d hd; simp at hd; omega)
  have h2 := getOffset_spec (rest := m ++ (p ++ rest)) ho (by subst em; exact ends_cons qm)
  have h3 := name_of (rest := p ++ rest) hm (by subst ep; intro d hd; simp at hd; omega)
  have h4 := getOffset_spec hp hr
  have l1 := hn.1; have l2 := hn.2.1; have l3 := hm.1; have l4 := hm.2.1
  unfold parse
  rw [h1]
  simp only
  rw [if_neg (by omega), if_neg (by subst eo; simp), h2]
  simp only [Option.bind_some]
  rw [if_neg (by subst em; simp), h3]
  simp only
  rw [if_neg (by omega)]
  have hb : ¬ n.length + 1 + (m.length + 1) > 512 := by omega
  simp only [hb, if_false]
  subst ep
  simp only [List.cons_append] at h4 ⊢
  rw [if_pos (by omega), h4]
  rfl

/-- The text of a zone with rules is read as that zone. -/
theorem parse_zone {z : Zone} {l : List Nat} (h : ZoneText z l) : parse l = some (.zone z) := by
  cases h with
  | short hn ho hm ha hb => rw [parse_short hn ho hm (Or.inr ⟨_, rfl⟩), getRules_spec ha hb]; rfl
  | long hn ho hm hp ha hb =>
    rw [parse_long hn ho hm hp (ends_cons (by unfold AfterSecs; omega)), getRules_spec ha hb]; rfl

theorem getRules_nil (s d : Int) : getRules s d [] = some ⟨s, d, .month 4 1 0, 7200, .month 10 5 0, 7200⟩ := by
  rfl

/-- The text of a zone whose rules are left out is read as that zone. -/
theorem parse_bare {z : Zone} {l : List Nat} (h : BareText z l) : parse l = some (.zone z) := by
  cases h with
  | short hn ho hm =>
    have := parse_short hn ho hm (Or.inl rfl)
    rw [List.append_nil] at this
    rw [this, getRules_nil]; rfl
  | long hn ho hm hp =>
    have := parse_long hn ho hm hp (rest := []) (by intro c h; cases h)
    rw [List.append_nil] at this
    rw [this, getRules_nil]; rfl

/-- The text of a zone without summer time is read as its offset. -/
theorem parse_fixed {s : Int} {n o : List Nat} (hn : Name n) (ho : Offset s o) : parse (n ++ o) = some (.fixed s) := by
  obtain ⟨c, r, eo, qo⟩ := offset_head ho
  have h1 := name_of (rest := o) hn (by subst eo; intro d hd; simp at hd; omega)
  have h2 := getOffset_spec (rest := []) ho (by intro c h; cases h)
  rw [List.append_nil] at h2
  have l1 := hn.1; have l2 := hn.2.1
  unfold parse
  rw [h1]
  simp only
  rw [if_neg (by omega), if_neg (by subst eo; simp), h2]
  simp only [Option.bind_some, if_true]
  rw [if_neg (by omega)]

/-- "EST5EDT,M3.2.0,M11.1.0", a zone as it is meant. -/
example : ZoneText ⟨18000, 14400, .month 3 2 0, 7200, .month 11 1 0, 7200⟩
    ([69,83,84] ++ ([53] ++ ([69,68,84] ++ 44 :: ((77 :: ([51] ++ 46 :: ([50] ++ 46 :: [48]))) ++ 44 :: (77 :: ([49,49] ++ 46 :: ([49] ++ 46 :: [48]))))))) := by
  have hn : ∀ n l, l ≠ [] → (∀ c ∈ l, 48 ≤ c ∧ c ≤ 57) → l.foldl (fun a c => a*10 + (c - 48)) 0 = n → Num n l := fun _ _ a b c => ⟨a, b, c⟩
  exact .short (s := 18000) ⟨by decide, by decide, by decide⟩ (.plain (.h (h := 5) (hn 5 _ (by decide) (by decide) (by decide)) (by decide)))
    ⟨by decide, by decide, by decide⟩
    (.short (.month (hn 3 _ (by decide) (by decide) (by decide)) (by decide) (by decide) (hn 2 _ (by decide) (by decide) (by decide)) (by decide) (by decide)
      (hn 0 _ (by decide) (by decide) (by decide)) (by decide)))
    (.short (.month (hn 11 _ (by decide) (by decide) (by decide)) (by decide) (by decide) (hn 1 _ (by decide) (by decide) (by decide)) (by decide) (by decide)
      (hn 0 _ (by decide) (by decide) (by decide)) (by decide)))

/-- "EST5EDT;M3.2.0,M11.1.0": the semicolon which may stand for the first comma is taken for part of the name. -/
theorem semicolon : parse [69,83,84,53,69,68,84,59,77,51,46,50,46,48,44,77,49,49,46,49,46,48] = none := by decide +kernel

/-- Hours above 167, minutes above 59 and months above 12 are refused. -/
example : parse [69,83,84,49,54,56] = none ∧ parse [69,83,84,53,58,54,48] = none ∧
    parse [69,83,84,53,69,68,84,44,77,49,51,46,49,46,48,44,77,49,49,46,49,46,48] = none := by decide +kernel

end Calendar
