import Verif.Ecm.Lossless

/-!
# One station and whatever is sent to it
-/

namespace Ecm

/-- Several steps of the sender, with the frames sent. -/
def txSteps : Nat → Tx → Tx × List Msg
  | 0, t => (t, [])
  | n + 1, t =>
    let p := Ecm.txStep t
    let q := txSteps n p.1
    (q.1, p.2 ++ q.2)

theorem nextFrame_list (buf : Buf) (g : Nat → Option Msg) (hg : ∀ i, g i = (buf i).map (Msg.fcd i)) (n : Nat) : ∀ i,
    match nextFrame buf n i with
    | none => (List.range' i n).filterMap g = []
    | some (k, d) => (List.range' i n).filterMap g = .fcd k d :: (List.range' (k + 1) (i + n - (k + 1))).filterMap g ∧ i ≤ k ∧ k < i + n := by
  induction n with
  | zero => intro i; rfl
  | succ n ih =>
    intro i
    rw [nextFrame]
    cases hb : buf i with
    | some d =>
      dsimp only
      rw [List.range'_succ, List.filterMap_cons, hg, hb]
      refine ⟨?_, Nat.le_refl _, by omega⟩
      rw [show i + (n + 1) - (i + 1) = n by omega]; rfl
    | none =>
      have := ih (i + 1)
      dsimp only
      rw [List.range'_succ, List.filterMap_cons, hg, hb]
      dsimp only [Option.map_none]
      cases hn : nextFrame buf n (i + 1) with
      | none => rw [hn] at this; exact this
      | some p =>
        obtain ⟨k, d⟩ := p
        rw [hn] at this
        obtain ⟨h1, h2, h3⟩ := this
        refine ⟨?_, by omega, by omega⟩
        rw [h1, show i + (n + 1) - (k + 1) = i + 1 + n - (k + 1) by omega]

/-- The frames which are sent from frame `cur` on. -/
theorem burst_sends (n : Nat) : ∀ t : Tx, t.st = .iv → t.cur ≤ t.frames → t.frames - t.cur = n →
    ∃ m cur burst, txSteps m t = ({ t with cur := cur, burst := burst },
      (List.range' t.cur (t.frames - t.cur)).filterMap fun i => (t.buf i).map (Msg.fcd i)) ∧
      cur ≤ t.frames ∧ nextFrame t.buf (t.frames - cur) cur = none ∧
      burst = t.burst + ((List.range' t.cur (t.frames - t.cur)).filterMap fun i => (t.buf i).map (Msg.fcd i)).length := by
  induction n using Nat.strongRecOn with
  | ind n ih =>
    intro t hst hc hn
    have hl := nextFrame_list t.buf (fun i => (t.buf i).map (Msg.fcd i)) (fun _ => rfl) (t.frames - t.cur) t.cur
    cases hf : nextFrame t.buf (t.frames - t.cur) t.cur with
    | none =>
      rw [hf] at hl
      refine ⟨0, t.cur, t.burst, ?_, hc, hf, ?_⟩
      · dsimp only at hl; rw [hl]; rfl
      · dsimp only at hl; rw [hl]; rfl
    | some p =>
      obtain ⟨k, d⟩ := p
      rw [hf] at hl
      obtain ⟨h1, h2, h3⟩ := hl
      obtain ⟨m, cur, burst, a, b, c, e⟩ := ih (t.frames - (k + 1)) (by omega) { t with cur := k + 1, burst := t.burst + 1 } hst
        (by show k + 1 ≤ t.frames; omega) rfl
      refine ⟨m + 1, cur, burst, ?_, b, c, ?_⟩
      · have e1 : Ecm.txStep t = ({ t with cur := k + 1, burst := t.burst + 1 }, [.fcd k d]) := by
          simp [Ecm.txStep, hst, sendNext, hf]
        simp only [txSteps, e1]
        rw [a, h1, show t.cur + (t.frames - t.cur) - (k + 1) = t.frames - (k + 1) by omega]
        rfl
      · rw [h1, e, show t.cur + (t.frames - t.cur) - (k + 1) = t.frames - (k + 1) by omega]
        simp only [List.length_cons]
        omega

theorem txSteps_add (m n : Nat) : ∀ t, txSteps (m + n) t = ((txSteps n (txSteps m t).1).1, (txSteps m t).2 ++ (txSteps n (txSteps m t).1).2) := by
  induction m with
  | zero => intro t; simp [txSteps]
  | succ m ih =>
    intro t
    rw [show m + 1 + n = (m + n) + 1 by omega]
    simp only [txSteps]
    rw [ih, List.append_assoc]

/-- A burst: the frames, three RCP frames and the PPS. -/
theorem burst_whole (t : Tx) (hst : t.st = .iv) (hc : t.cur = 0) :
    ∃ m cur burst, (txSteps m t).2 = ((List.range t.frames).filterMap fun i => (t.buf i).map (Msg.fcd i)) ++ [.rcp, .rcp, .rcp] ++
      (txPps { t with cur := cur, burst := burst }).2 ∧
      burst = t.burst + ((List.range t.frames).filterMap fun i => (t.buf i).map (Msg.fcd i)).length := by
  obtain ⟨m, cur, burst, a, b, c, e⟩ := burst_sends _ t hst (by omega) rfl
  rw [hc, Nat.sub_zero, ← List.range_eq_range'] at a e
  have hif : (if cur < t.frames then t.frames else cur) = t.frames := by split <;> omega
  have z : ∀ k, nextFrame t.buf (t.frames - (t.frames + k)) (t.frames + k) = none := by
    intro k; rw [show t.frames - (t.frames + k) = 0 by omega]; rfl
  have s1 : ∀ t' : Tx, t'.st = .iv → t'.cur ≤ t'.frames → nextFrame t'.buf (t'.frames - t'.cur) t'.cur = none →
      Ecm.txStep t' = ({ t' with cur := t'.frames + 1 }, [.rcp]) := by
    intro t' h1 h2 h3
    have : (if t'.cur < t'.frames then t'.frames else t'.cur) = t'.frames := by split <;> omega
    simp [Ecm.txStep, h1, sendNext, h3, this]
  have s2 : ∀ (t' : Tx) (k : Nat), t'.st = .iv → t'.cur = t'.frames + k → 1 ≤ k → k < 3 →
      Ecm.txStep t' = ({ t' with cur := t'.frames + k + 1 }, [.rcp]) := by
    intro t' k h1 h2 h3 h4
    have h5 : t'.frames - t'.cur = 0 := by omega
    have h6 : ¬ t'.cur < t'.frames := by omega
    have h7 : t'.cur < t'.frames + 3 := by omega
    simp only [Ecm.txStep, h1, if_true, sendNext, h5, nextFrame, if_neg h6, if_pos h7]
    simp only [h2]
  have s3 : ∀ (t' : Tx), t'.st = .iv → t'.cur = t'.frames + 3 → Ecm.txStep t' = txPps t' := by
    intro t' h1 h2
    have h5 : t'.frames - t'.cur = 0 := by omega
    have h6 : ¬ t'.cur < t'.frames := by omega
    have h7 : ¬ t'.cur < t'.frames + 3 := by omega
    simp only [Ecm.txStep, h1, if_true, sendNext, h5, nextFrame, if_neg h6, if_neg h7]
    congr 1
    obtain ⟨⟩ := t'
    simp_all
  refine ⟨m + 4, t.frames + 3, burst, ?_, e⟩
  rw [txSteps_add, a]
  simp only [txSteps]
  rw [s1 { t with cur := cur, burst := burst } hst b c]
  rw [s2 { t with cur := t.frames + 1, burst := burst } 1 hst rfl (by omega) (by omega)]
  rw [s2 { t with cur := t.frames + 1 + 1, burst := burst } 2 hst rfl (by omega) (by omega)]
  rw [s3 { t with cur := t.frames + 2 + 1, burst := burst } hst rfl]
  simp

/-! ## The receiver -/

theorem firstBad_all (buf : Buf) (N : Nat) (h : firstBad buf 256 0 ≥ N) : N ≤ 256 ∧ ∀ j, j < N → buf j ≠ none := by
  have hle : ∀ n i, i + n = 256 → firstBad buf n i ≤ 256 := by
    intro n
    induction n with
    | zero => intro i _; exact Nat.le_refl _
    | succ n ih =>
      intro i hi
      rw [firstBad]
      split
      · omega
      · exact ih (i + 1) (by omega)
  have h1 := hle 256 0 rfl
  have h2 : N ≤ 256 := by omega
  exact ⟨h2, fun j hj => (firstBad_ge buf N 256 0 rfl h2).1 h j (Nat.zero_le _) hj⟩

/-- The vetting of the lengths only takes frames away. -/
theorem vet_sub (N n : Nat) : ∀ i first expected (buf : Buf) j, vet N n i first expected buf j = buf j ∨ vet N n i first expected buf j = none := by
  induction n with
  | zero => intros; exact Or.inl rfl
  | succ n ih =>
    intro i first expected buf j
    rw [vet]
    cases hb : buf i with
    | none => exact ih _ _ _ _ _
    | some d =>
      dsimp only
      split
      · generalize (if (first && d.length == 64) = true then 64 else expected) = ex
        split
        · exact ih _ _ _ _ _
        · rcases ih (i + 1) false ex (buf.set i none) j with h | h
          · by_cases hj : j = i
            · subst hj; rw [h, set_same]; exact Or.inr rfl
            · rw [h, set_other _ _ hj]; exact Or.inl rfl
          · exact Or.inr h
      · exact ih _ _ _ _ _

theorem rxReply_same (r : Rx) : (rxReply r).1.pages = r.pages ∧ (rxReply r).1.out = r.out ∧ (rxReply r).1.buf = r.buf := by
  unfold rxReply rxRespond
  split
  · exact ⟨rfl, rfl, rfl⟩
  · split <;> exact ⟨rfl, rfl, rfl⟩

/-- The frames of a block which is whole. -/
theorem whole_block (buf : Buf) (n : Nat) (h : ∀ j, j < n → buf j ≠ none) :
    ∃ F : List (List Nat), F.length = n ∧ (∀ i, i < n → buf i = F[i]?) ∧ ((List.range n).flatMap fun i => (buf i).getD []) = F.flatten := by
  refine ⟨(List.range n).map fun i => (buf i).getD [], by simp, ?_, ?_⟩
  · intro i hi
    cases hb : buf i with
    | none => exact absurd hb (h i hi)
    | some d => simp [hi, hb]
  · rw [List.flatMap_def]

/-- What a PPS makes the receiver hand over. -/
theorem rxPps_hands (r : Rx) (f : Fcf2) (p b c : Nat) :
    ((rxPps r f p b c).1.pages = r.pages ∧ (rxPps r f p b c).1.out = r.out) ∨
    ∃ F : List (List Nat), p = r.page % 256 ∧ b = r.block % 256 ∧ F.length = r.frames.getD (c + 1) ∧
      (∀ i, i < F.length → r.buf i = F[i]?) ∧
      (f = .null → (rxPps r f p b c).1.pages = r.pages ∧ (rxPps r f p b c).1.out = r.out ++ F.flatten) ∧
      (f ≠ .null → (rxPps r f p b c).1.pages = r.pages ++ [r.out ++ F.flatten] ∧ (rxPps r f p b c).1.out = []) := by
  by_cases hm : r.page % 256 ≠ p ∨ r.block % 256 ≠ b
  · left
    have e : rxPps r f p b c = if (r.page % 256 = p ∧ (r.block + 255) % 256 = b) ∨ ((r.page + 255) % 256 = p ∧ r.block = 0) then
        ({ r with last := f, buf := fun _ => none, frames := none, st := .postMcf }, [.mcf])
        else ({ r with last := f, frames := some (r.frames.getD (c + 1)), st := .done }, [.dcn]) := by
      simp only [rxPps, if_pos hm]; rfl
    rw [e]
    split <;> exact ⟨rfl, rfl⟩
  · have hpb : p = r.page % 256 ∧ b = r.block % 256 := by omega
    have e : ∀ n, r.frames.getD (c + 1) = n → ∀ buf, vet n 256 0 true 256 r.buf = buf →
        rxPps r f p b c = rxReply (if firstBad buf 256 0 ≥ n
          then rxCommit { r with last := f, frames := some n, buf := buf, map := frameMap buf, blockOk := true } n
          else { r with last := f, frames := some n, buf := buf, map := frameMap buf, blockOk := false }) := by
      intro n hn buf hbuf
      simp only [rxPps, if_neg hm, hn, Option.getD_some, hbuf]
      by_cases h : firstBad buf 256 0 ≥ n
      · simp [h]
      · simp [h]
    generalize hn : r.frames.getD (c + 1) = n at *
    generalize hbuf : vet n 256 0 true 256 r.buf = buf at *
    rw [e n rfl buf hbuf]
    obtain ⟨q1, q2, _⟩ := rxReply_same (if firstBad buf 256 0 ≥ n
          then rxCommit { r with last := f, frames := some n, buf := buf, map := frameMap buf, blockOk := true } n
          else { r with last := f, frames := some n, buf := buf, map := frameMap buf, blockOk := false })
    rw [q1, q2]
    by_cases h : firstBad buf 256 0 ≥ n
    · right
      rw [if_pos h]
      obtain ⟨_, h2⟩ := firstBad_all buf n h
      obtain ⟨F, f1, f2, f3⟩ := whole_block buf n h2
      have hsub : ∀ i, i < n → buf i = r.buf i := by
        intro i hi
        rcases vet_sub n 256 0 true 256 r.buf i with h | h
        · rw [← hbuf]; exact h
        · rw [hbuf] at h; exact absurd h (h2 i hi)
      refine ⟨F, hpb.1, hpb.2, f1, ?_, ?_, ?_⟩
      · intro i hi; rw [← hsub i (by omega)]; exact f2 i (by omega)
      · intro hf
        simp only [rxCommit, hf, if_true, f3]
        exact ⟨trivial, trivial⟩
      · intro hf
        simp only [rxCommit, if_neg hf, f3, rxEndPage]
        exact ⟨trivial, trivial⟩
    · left; rw [if_neg h]; exact ⟨rfl, rfl⟩

/-- What any message makes the receiver hand over. -/
theorem rxRecv_hands (r : Rx) (m : Msg) :
    ((rxRecv r m).1.pages = r.pages ∧ (rxRecv r m).1.out = r.out) ∨
    ∃ f p b c, m = .pps f p b c ∧ rxRecv r m = rxPps r f p b c := by
  have hreply := rxReply_same r
  cases m with
  | pps f p b c =>
    cases h : r.st <;> first
      | (refine Or.inr ⟨f, p, b, c, rfl, ?_⟩; simp only [rxRecv, h, rxDoc]; done)
      | (left; simp only [rxRecv, h, rxPostMcf, rxPostPpr, rxPostRnr, rxDcn]; exact ⟨trivial, trivial⟩)
  | rr =>
    left
    cases h : r.st <;> simp only [rxRecv, h, rxDoc, rxPostMcf, rxPostPpr, rxPostRnr, rxDcn] <;>
      first | exact ⟨trivial, trivial⟩ | exact ⟨hreply.1, hreply.2.1⟩
  | fcd no d =>
    left
    cases h : r.st <;> simp only [rxRecv, h, rxDoc, rxPostMcf, rxPostPpr, rxPostRnr, rxFcd] <;>
      first | exact ⟨trivial, trivial⟩ | (split <;> exact ⟨rfl, rfl⟩)
  | rcp =>
    left
    cases h : r.st <;> simp only [rxRecv, h, rxDoc, rxPostMcf, rxPostPpr, rxPostRnr, rxRcp] <;>
      first | exact ⟨trivial, trivial⟩ | (split <;> exact ⟨rfl, rfl⟩)
  | _ =>
    left
    cases h : r.st <;> simp only [rxRecv, h, rxDoc, rxPostMcf, rxPostPpr, rxPostRnr, rxDcn] <;> exact ⟨trivial, trivial⟩

/-- What can happen to a receiver. -/
inductive In where
  | msg (m : Msg)
  | sent
  | carrier
  | t2
  | t4
deriving DecidableEq, Repr

/-- The receiver alone, with any messages: src/t30.c:6238-6357, 6868-7008 and 7101-7152, by way of the functions of the model. -/
def Rx.feed (cfg : Cfg) (r : Rx) : In → Rx
  | .msg m => (rxRecv r m).1
  | .sent => Ecm.rxSent r
  | .carrier => Ecm.rxCarrier r
  | .t2 => Ecm.rxT2 r
  | .t4 => (Ecm.rxT4 cfg r).1

/-- Where the frames in the buffer come from. -/
theorem feed_buf (cfg : Cfg) (r : Rx) (e : In) (i : Nat) (d : List Nat) (h : (r.feed cfg e).buf i = some d) :
    r.buf i = some d ∨ e = .msg (.fcd i d) := by
  have hvet : ∀ n, vet n 256 0 true 256 r.buf i = some d → r.buf i = some d := by
    intro n hv
    rcases vet_sub n 256 0 true 256 r.buf i with h | h
    · rw [← h]; exact hv
    · rw [h] at hv; cases hv
  have hcommit : ∀ (r' : Rx) n, (rxCommit r' n).buf i = some d → False := by
    intro r' n hc
    rw [rxCommit] at hc
    dsimp only [rxEndPage] at hc
    split at hc <;> cases hc
  have hpps : ∀ f p b c, (rxPps r f p b c).1.buf i = some d → r.buf i = some d := by
    intro f p b c hp
    unfold rxPps at hp
    dsimp only at hp
    split at hp
    · split at hp
      · cases hp
      · exact hp
    · rw [(rxReply_same _).2.2] at hp
      split at hp
      · exact (hcommit _ _ hp).elim
      · exact hvet _ hp
  cases e with
  | sent =>
    left
    change (Ecm.rxSent r).buf i = some d at h
    unfold Ecm.rxSent at h
    split at h
    · split at h <;> exact h
    · exact h
  | carrier =>
    left
    change (Ecm.rxCarrier r).buf i = some d at h
    unfold Ecm.rxCarrier at h
    split at h <;> exact h
  | t2 =>
    left
    change (Ecm.rxT2 r).buf i = some d at h
    unfold Ecm.rxT2 at h
    split at h <;> exact h
  | t4 =>
    left
    change (Ecm.rxT4 cfg r).1.buf i = some d at h
    unfold Ecm.rxT4 rxDcn at h
    dsimp only at h
    split at h
    · split at h <;> exact h
    · split at h
      · split at h <;> exact h
      · exact h
  | msg m =>
    change (rxRecv r m).1.buf i = some d at h
    cases m with
    | fcd no x =>
      have hf : (rxFcd r no x).buf i = some d → r.buf i = some d ∨ In.msg (.fcd no x) = .msg (.fcd i d) := by
        intro h
        unfold rxFcd at h
        split at h
        · change Buf.set r.buf no (some x) i = some d at h
          by_cases hi : i = no
          · subst hi; rw [set_same] at h; cases h; exact Or.inr rfl
          · rw [set_other _ _ hi] at h; exact Or.inl h
        · exact Or.inl h
      cases hs : r.st <;> simp only [rxRecv, hs, rxDoc, rxPostMcf, rxPostPpr, rxPostRnr] at h <;>
        first | exact hf h | exact Or.inl h
    | pps f p b c =>
      left
      cases hs : r.st <;> simp only [rxRecv, hs, rxDoc, rxPostMcf, rxPostPpr, rxPostRnr] at h <;>
        first | exact hpps _ _ _ _ h | exact h
    | rcp =>
      left
      have hf : (rxRcp r).buf i = some d → r.buf i = some d := by
        intro h; unfold rxRcp at h; split at h <;> exact h
      cases hs : r.st <;> simp only [rxRecv, hs, rxDoc, rxPostMcf, rxPostPpr, rxPostRnr] at h <;>
        first | exact hf h | exact h
    | rr =>
      left
      cases hs : r.st <;> simp only [rxRecv, hs, rxDoc, rxPostMcf, rxPostPpr, rxPostRnr, (rxReply_same r).2.2] at h <;> exact h
    | _ =>
      left
      cases hs : r.st <;> simp only [rxRecv, hs, rxDoc, rxPostMcf, rxPostPpr, rxPostRnr] at h <;> exact h

/-- What the receiver has handed over is made of frames which it has received. -/
theorem feed_only (cfg : Cfg) (ins : List In) : ∀ (r : Rx) (old : List In),
    (∀ i d, r.buf i = some d → In.msg (.fcd i d) ∈ old) →
    (∃ (P : List (List (List Nat))) (O : List (List Nat)), r.pages = P.map List.flatten ∧ r.out = O.flatten ∧
      ∀ x ∈ P.flatten ++ O, ∃ no, In.msg (.fcd no x) ∈ old) →
    ∃ (P : List (List (List Nat))) (O : List (List Nat)), (ins.foldl (Rx.feed cfg) r).pages = P.map List.flatten ∧
      (ins.foldl (Rx.feed cfg) r).out = O.flatten ∧ ∀ x ∈ P.flatten ++ O, ∃ no, In.msg (.fcd no x) ∈ old ++ ins := by
  induction ins with
  | nil => intro r old _ h; simpa using h
  | cons e ins ih =>
    intro r old hbuf hout
    rw [List.foldl_cons, show old ++ e :: ins = (old ++ [e]) ++ ins by simp]
    have same : (r.feed cfg e).pages = r.pages → (r.feed cfg e).out = r.out →
        ∃ (P : List (List (List Nat))) (O : List (List Nat)), (r.feed cfg e).pages = P.map List.flatten ∧
          (r.feed cfg e).out = O.flatten ∧ ∀ x ∈ P.flatten ++ O, ∃ no, In.msg (.fcd no x) ∈ old ++ [e] := by
      intro h1 h2
      obtain ⟨P, O, a, b, c⟩ := hout
      exact ⟨P, O, h1.trans a, h2.trans b, fun x hx => (c x hx).imp fun no h => List.mem_append_left _ h⟩
    apply ih
    · intro i d h
      rcases feed_buf cfg r e i d h with h | h
      · exact List.mem_append_left _ (hbuf i d h)
      · rw [h]; simp
    · cases e with
      | msg m =>
        rcases rxRecv_hands r m with ⟨h1, h2⟩ | ⟨f, p, b, c, rfl, he⟩
        · exact same h1 h2
        · rcases rxPps_hands r f p b c with ⟨h1, h2⟩ | ⟨F, _, _, _, hF, h1, h2⟩
          · rw [← he] at h1 h2; exact same h1 h2
          · have hmem : ∀ x ∈ F, ∃ no, In.msg (.fcd no x) ∈ old ++ [.msg (.pps f p b c)] := by
              intro x hx
              obtain ⟨i, hi, hx⟩ := List.getElem_of_mem hx
              refine ⟨i, List.mem_append_left _ (hbuf i x ?_)⟩
              rw [hF i hi, List.getElem?_eq_getElem hi, hx]
            obtain ⟨P, O, a, b', c'⟩ := hout
            rw [← he] at h1 h2
            by_cases hf : f = .null
            · obtain ⟨g1, g2⟩ := h1 hf
              refine ⟨P, O ++ F, g1.trans a, ?_, ?_⟩
              · show (rxRecv r _).1.out = _
                rw [g2, b']; simp
              · intro x hx
                rw [← List.append_assoc] at hx
                rcases List.mem_append.1 hx with hx | hx
                · exact (c' x hx).imp fun no h => List.mem_append_left _ h
                · exact hmem x hx
            · obtain ⟨g1, g2⟩ := h2 hf
              refine ⟨P ++ [O ++ F], [], ?_, ?_, ?_⟩
              · show (rxRecv r _).1.pages = _
                rw [g1, a, b']; simp
              · show (rxRecv r _).1.out = _
                rw [g2]; rfl
              · intro x hx
                have hx' : x ∈ (P.flatten ++ O) ++ F := by simpa using hx
                rcases List.mem_append.1 hx' with hx | hx
                · exact (c' x hx).imp fun no h => List.mem_append_left _ h
                · exact hmem x hx
      | sent => refine same ?_ ?_ <;> (dsimp only [Rx.feed, Ecm.rxSent]; split <;> [skip; rfl]) <;> split <;> rfl
      | carrier => refine same ?_ ?_ <;> (dsimp only [Rx.feed, Ecm.rxCarrier]; split <;> rfl)
      | t2 => refine same ?_ ?_ <;> (dsimp only [Rx.feed, Ecm.rxT2]; split <;> rfl)
      | t4 => exact same (rxT4_same cfg r).1 (rxT4_same cfg r).2

end Ecm
