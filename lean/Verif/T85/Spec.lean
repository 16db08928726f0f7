/-!
# What a T.85 page is

Nothing here refers to the model.
-/

namespace T85.Spec

/-- Pixel `k` of a row: the first pixel is the top bit of the first byte. What is behind the end of a row is white. -/
def dot (row : List Nat) (k : Nat) : Bool := (row.getD (k / 8) 0).testBit (7 - k % 8)

/-- `out` are the bytes of a row which is `xd` pixels wide, with the pixels of `row`, and with zeros in the rest of the last byte. -/
def Shows (xd : Nat) (row out : List Nat) : Prop :=
  out.length = (xd + 7) / 8 ∧ (∀ b ∈ out, b < 256) ∧ ∀ k, dot out k = (decide (k < xd) && dot row k)

/-- The rows of a page which was announced with `yd` rows, and for which the application gave the rows `src`. Rows beyond the announced length are not
asked for. If there are too few, and the length of the page may vary, the page is as long as there are rows, but has at least one row. If the length may not
vary the page is filled with white rows. `[]` stands for a white row. -/
def page (yd : Nat) (vary : Bool) (src : List (List Nat)) : List (List Nat) :=
  if yd ≤ src.length then src.take yd
  else if vary = false then src ++ List.replicate (yd - src.length) []
  else if src = [] then [[]]
  else src

/-- The rows `out` show the rows `page`, one by one. -/
def ShowsAll (xd : Nat) (page out : List (List Nat)) : Prop :=
  out.length = page.length ∧ ∀ n, n < page.length → Shows xd (page.getD n []) (out.getD n [])

end T85.Spec
