import Verif.G726.Spec

/-!
# Where G.726 falls short
-/

namespace G726

/-- Full scale comes out with the wrong sign: `sr << 2` is cut to 16 bits and not limited, so samples which are all
32767 give -30160 from a decoder at 32000 bits/s and -32200 from one at 40000 bits/s (src/g726.c:802, :881, :960,
:1040). -/
theorem overload_wraps :
    ((encode ⟨tab32, .linear, .none⟩ init (List.replicate 12 32767)).bind fun e =>
      (decode ⟨tab32, .linear, .none⟩ init e.2).map fun d => d.2.getLast?) = some (some (-30160)) ∧
    ((encode ⟨tab40, .linear, .none⟩ init (List.replicate 14 32767)).bind fun e =>
      (decode ⟨tab40, .linear, .none⟩ init e.2).map fun d => d.2.getLast?) = some (some (-32200)) := by
  decide +kernel

end G726
