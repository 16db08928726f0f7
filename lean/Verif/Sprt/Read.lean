import Verif.Sprt.Spec

/-!
# Nothing is read outside of a datagram
-/

namespace Sprt

/-- Two octets of a datagram, 0 where it has none. -/
def get16 (pkt : List Nat) (i : Nat) : Nat := (pkt[i]?.getD 0) * 256 + pkt[i + 1]?.getD 0

/-- `rxContents` when the datagram is long enough. -/
def rxBody (e : Ep) (pkt : List Nat) (now : Nat) (app : List Bool) : Option (Ep × Bool) :=
  let c := get16 pkt 2 / 16384 % 4
  let seq := get16 pkt 2 % 16384
  let noa := get16 pkt 4 / 16384 % 4
  let e := e.setTx c { e.tx c with baseSeq := get16 pkt 4 % 16384 }
  if pkt.length < 6 + 2 * noa then some (e, false)
  else
    (processAcks e ((List.range noa).map fun i => get16 pkt (6 + 2 * i))).bind fun e =>
    (rxPayload e c seq (pkt.drop (6 + 2 * noa)) now app).bind fun e => some (e, true)

/-- `rxPacket` with the length checked once. -/
def rxPlain (e : Ep) (pkt : List Nat) (now : Nat) (app : List Bool) : Option (Ep × Bool) :=
  let b0 := pkt[0]?.getD 0
  let b1 := pkt[1]?.getD 0
  if pkt.length < 6 then some (e, false)
  else if b0 / 128 % 2 ≠ 0 ∨ b1 / 128 % 2 ≠ 0 then some (e, false)
  else if b1 % 128 ≠ e.rxType then some (e, false)
  else if e.rxSub = 255 then rxBody { e with rxSub := b0 % 128 } pkt now app
  else if b0 % 128 ≠ e.rxSub then some (e.emit (.status 2), false)
  else rxBody e pkt now app

theorem at16_eq {pkt : List Nat} {i : Nat} (h : i + 1 < pkt.length) : at16 pkt i = some (get16 pkt i) := by
  unfold at16 at8 get16
  rw [List.getElem?_eq_getElem h, List.getElem?_eq_getElem (show i < pkt.length by omega)]
  rfl

theorem mapM_some {α β : Type} (f : α → Option β) (g : α → β) : ∀ (l : List α), (∀ a ∈ l, f a = some (g a)) → l.mapM f = some (l.map g)
  | [], _ => rfl
  | a :: l, h => by
    rw [List.mapM_cons, h a List.mem_cons_self, mapM_some f g l (fun b hb => h b (List.mem_cons_of_mem _ hb))]
    rfl

theorem rxContents_eq (e : Ep) {pkt : List Nat} (now : Nat) (app : List Bool) (h : ¬ pkt.length < 6) : rxContents e pkt now app = rxBody e pkt now app := by
  unfold rxContents rxBody
  rw [at16_eq (by omega), at16_eq (by omega), Option.bind_some, Option.bind_some]
  simp only
  split
  · rfl
  · next hl =>
    rw [mapM_some _ (fun i => get16 pkt (6 + 2 * i))]
    · rfl
    · intro i hi
      rw [List.mem_range] at hi
      exact at16_eq (by omega)

theorem rxPacket_eq (e : Ep) (pkt : List Nat) (now : Nat) (app : List Bool) : rxPacket e pkt now app = rxPlain e pkt now app := by
  unfold rxPacket rxPlain
  simp only
  by_cases h : pkt.length < 6
  · rw [if_pos h, if_pos h]
  · rw [if_neg h, if_neg h, show at8 pkt 0 = some (pkt[0]?.getD 0) by unfold at8; rw [List.getElem?_eq_getElem (show 0 < pkt.length by omega)]; rfl,
      show at8 pkt 1 = some (pkt[1]?.getD 0) by unfold at8; rw [List.getElem?_eq_getElem (show 1 < pkt.length by omega)]; rfl,
      Option.bind_some, Option.bind_some]
    simp only [rxContents_eq _ _ _ h]

end Sprt
