import Verif.V42.Spec

/-! # The invariant of the link -/

namespace V42

/-- N(R) of a frame. -/
def nrOf : Frame → Option Nat
  | _ :: b :: c :: _ => if b &&& 3 = 3 then none else some (c >>> 1)
  | _ => none

/-- N(S) and the information of a frame. -/
def nsOf : Frame → Option (Nat × List Nat)
  | _ :: b :: _ :: d => if b &&& 3 = 3 ∨ b &&& 3 = 1 then none else some (b >>> 1, d)
  | _ => none

/-- A frame of a connection. -/
def GoodF : Frame → Prop
  | [_, b] => b &&& 3 = 3 ∧ (b &&& 0xEC = 0x40 ∨ b &&& 0xEC = 0x60 ∨ b &&& 0xEC = 0x0C)
  | _ :: b :: _ :: _ => b &&& 3 ≠ 3
  | _ => False

/-- The information frames on their way carry the data `T`, when `R` of it are there. -/
def Chain (T : List (List Nat)) : Nat → List Frame → Prop
  | _, [] => True
  | R, f :: t =>
    match nsOf f with
    | none => Chain T R t
    | some (ns, d) => ∃ i, ns = i % 128 ∧ T[i]? = some d ∧ R ≤ i + 15 ∧ Chain T (max R (i + 1)) t

/-- The acknowledgements on their way go up from `A` to `R`. -/
def Acks (R : Nat) : Nat → List Frame → Prop
  | A, [] => A ≤ R
  | A, f :: t =>
    match nrOf f with
    | none => Acks R A t
    | some m => ∃ n, A ≤ n ∧ m = n % 128 ∧ Acks R n t

/-- The ring of a side, `A` of whose frames are acknowledged. -/
def Ring (A : Nat) (x : Lapm) : Prop :=
  ∃ G, A ≤ G ∧ G ≤ x.taken.length ∧ x.va = A % 128 ∧ x.vs = G % 128 ∧ x.acked = A % 16 ∧ x.get = G % 16 ∧ x.put = x.taken.length % 16 ∧
    ∀ i, A ≤ i → i < x.taken.length → x.taken[i]? = some (x.info (i % 16))

/-- From x to y. `lx` and `ly` are if the variables of the side still belong to this connection. -/
structure Dir (A : Nat) (lx ly : Bool) (x y : Lapm) (xy yx : List Frame) : Prop where
  ring : lx = true → Ring A x
  le : A ≤ (delivered y).length ∧ (delivered y).length ≤ x.taken.length ∧ x.taken.length ≤ A + 15
  pre : delivered y = x.taken.take (delivered y).length
  vr : ly = true → y.vr = (delivered y).length % 128
  chain : Chain x.taken (delivered y).length xy
  acks : Acks (delivered y).length A (yx ++ y.ctrl)

/-- What holds of one side. -/
structure Loc (l : Bool) (x : Lapm) : Prop where
  conf : x.configuring = false
  k : x.txK = 15
  timer : x.timer ≠ some .negotiate
  good : ∀ f ∈ x.ctrl, GoodF f ∧ nsOf f = none
  alive : x.state = .data ∨ x.state = .establish → l = true
  opening : x.state = .establish → x.taken = [] ∧ delivered x = []

/-- The invariant. -/
def Inv (lx : Bool) (x y : Lapm) (xy yx : List Frame) : Prop :=
  ∃ A B ly, Dir A lx ly x y xy yx ∧ Dir B ly lx y x yx xy ∧ Loc lx x ∧ Loc ly y ∧ (∀ f ∈ xy, GoodF f) ∧ ∀ f ∈ yx, GoodF f

theorem chain_mono {T : List (List Nat)} : ∀ (l : List Frame) {R R' : Nat}, R' ≤ R → Chain T R l → Chain T R' l := by
  intro l
  induction l with
  | nil => intros; trivial
  | cons f t ih =>
    intro R R' h hc
    rw [Chain] at hc ⊢
    split at hc
    · exact ih h hc
    · obtain ⟨i, h1, h2, h3, h4⟩ := hc
      exact ⟨i, h1, h2, by omega, ih (by omega) h4⟩

theorem chain_tail {T : List (List Nat)} {R : Nat} {f : Frame} {t : List Frame} (h : Chain T R (f :: t)) : Chain T R t := by
  rw [Chain] at h
  split at h
  · exact h
  · obtain ⟨i, _, _, _, h4⟩ := h
    exact chain_mono t (by omega) h4

theorem chain_more {T D : List (List Nat)} : ∀ (l : List Frame) {R : Nat}, Chain T R l → Chain (T ++ D) R l := by
  intro l
  induction l with
  | nil => intros; trivial
  | cons f t ih =>
    intro R hc
    rw [Chain] at hc ⊢
    split at hc
    · exact ih hc
    · obtain ⟨i, h1, h2, h3, h4⟩ := hc
      refine ⟨i, h1, ?_, h3, ih h4⟩
      have : i < T.length := (List.getElem?_eq_some_iff.mp h2).1
      rw [List.getElem?_append_left this]; exact h2

theorem chain_append {T : List (List Nat)} {f : Frame} (hf : ∀ ns d, nsOf f = some (ns, d) → ∃ i, ns = i % 128 ∧ T[i]? = some d ∧ T.length ≤ i + 15) : ∀ (l : List Frame) {R : Nat}, R ≤ T.length →
    Chain T R l → Chain T R (l ++ [f]) := by
  intro l
  induction l with
  | nil =>
    intro R hR _
    rw [List.nil_append, Chain]
    split
    · trivial
    · rename_i ns d h
      obtain ⟨i, h1, h2, h3⟩ := hf ns d h
      exact ⟨i, h1, h2, by omega, trivial⟩
  | cons g t ih =>
    intro R hR hc
    rw [List.cons_append]
    rw [Chain] at hc ⊢
    split at hc
    · exact ih hR hc
    · obtain ⟨i, h1, h2, h3, h4⟩ := hc
      have : i < T.length := (List.getElem?_eq_some_iff.mp h2).1
      exact ⟨i, h1, h2, h3, ih (by omega) h4⟩

theorem acks_le {R : Nat} : ∀ (l : List Frame) {A : Nat}, Acks R A l → A ≤ R := by
  intro l
  induction l with
  | nil => intro A h; exact h
  | cons f t ih =>
    intro A h
    rw [Acks] at h
    split at h
    · exact ih h
    · obtain ⟨n, h1, _, h3⟩ := h
      have := ih h3; omega

theorem acks_mono {R : Nat} (l : List Frame) {A A' : Nat} (h : A' ≤ A) (ha : Acks R A l) : Acks R A' l := by
  induction l with
  | nil => exact Nat.le_trans h ha
  | cons f t ih =>
    rw [Acks] at ha ⊢
    split at ha
    · exact ih ha
    · obtain ⟨n, h1, h2, h3⟩ := ha
      exact ⟨n, by omega, h2, h3⟩

theorem acks_tail {R A : Nat} {f : Frame} {t : List Frame} (h : Acks R A (f :: t)) : Acks R A t := by
  rw [Acks] at h
  split at h
  · exact h
  · obtain ⟨n, h1, _, h3⟩ := h
    exact acks_mono t h1 h3

theorem acks_more {R R' : Nat} (hR : R ≤ R') : ∀ (l : List Frame) {A : Nat}, Acks R A l → Acks R' A l := by
  intro l
  induction l with
  | nil => intro A h; exact Nat.le_trans h hR
  | cons f t ih =>
    intro A h
    rw [Acks] at h ⊢
    split at h
    · exact ih h
    · obtain ⟨n, h1, h2, h3⟩ := h
      exact ⟨n, h1, h2, ih h3⟩

theorem acks_left {R : Nat} (l2 : List Frame) : ∀ (l : List Frame) {A : Nat}, Acks R A (l ++ l2) → Acks R A l := by
  intro l
  induction l with
  | nil => intro A h; exact acks_le _ h
  | cons f t ih =>
    intro A h
    rw [List.cons_append] at h
    rw [Acks] at h ⊢
    split at h
    · exact ih h
    · obtain ⟨n, h1, h2, h3⟩ := h
      exact ⟨n, h1, h2, ih h3⟩

theorem acks_append {R : Nat} {f : Frame} (hf : ∀ m, nrOf f = some m → m = R % 128) : ∀ (l : List Frame) {A : Nat}, Acks R A l → Acks R A (l ++ [f]) := by
  intro l
  induction l with
  | nil =>
    intro A h
    have h : A ≤ R := h
    rw [List.nil_append, Acks]
    split
    · exact h
    · rename_i m hm
      exact ⟨R, h, hf m hm, Nat.le_refl _⟩
  | cons g t ih =>
    intro A h
    rw [List.cons_append]
    rw [Acks] at h ⊢
    split at h
    · exact ih h
    · obtain ⟨n, h1, h2, h3⟩ := h
      exact ⟨n, h1, h2, ih h3⟩

end V42
