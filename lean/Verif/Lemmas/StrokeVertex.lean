import Verif.Model.StrokeVertex

/-!
# Tables over all labels

A label in a mesh is one of 255 values; these facts are about all of them.
-/

set_option autoImplicit false

namespace Verif.Vertex

open F32

/-- The margins of all encodable exterior labels. -/
theorem decode_table : ∀ n < 127, ∀ s ∈ [(1 : ℤ), -1],
    (Label.decodeMargin ⟨ofInt (s * (n + 1 : ℕ))⟩).isFinite = true ∧
    |toRat (Label.decodeMargin ⟨ofInt (s * (n + 1 : ℕ))⟩) - 4 * n / 126| ≤ 1 / 2 ^ 22 ∧
    (Label.withMargin ⟨ofInt (s * (n + 1 : ℕ))⟩ (Label.decodeMargin ⟨ofInt (s * (n + 1 : ℕ))⟩)) =
      ⟨ofInt (s * (n + 1 : ℕ))⟩ := by
  decide +kernel

/-- Decoded margins grow with the encoded number. -/
theorem decode_mono_table : ∀ n < 126, ∀ s ∈ [(1 : ℤ), -1],
    toRat (Label.decodeMargin ⟨ofInt (s * (n + 1 : ℕ))⟩) <
      toRat (Label.decodeMargin ⟨ofInt (s * (n + 2 : ℕ))⟩) := by
  decide +kernel

/-- Packing of all encodable labels. -/
theorem pack_table : ∀ n : ℕ, n < 255 →
    (Mesh.packAttribute .f1In1Byte [labelCoding] [ofInt ((n : ℤ) - 127)] = some [n + 1]) ∧
    (Mesh.unpackAttribute .f1In1Byte [labelCoding] [n + 1] = some [ofInt ((n : ℤ) - 127)]) := by
  decide +kernel

/-- The smallest margin does not depend on the side. -/
theorem decode_zero_table : ∀ s ∈ [(1 : ℤ), -1], ∀ s' ∈ [(1 : ℤ), -1],
    toRat (Label.decodeMargin ⟨ofInt (s * (0 + 1 : ℕ))⟩) ≤
      toRat (Label.decodeMargin ⟨ofInt (s' * (0 + 1 : ℕ))⟩) := by
  decide +kernel

/-- Margins do not depend on the side. -/
theorem decode_sign_table : ∀ n < 127, toRat (Label.decodeMargin ⟨ofInt (1 * (n + 1 : ℕ))⟩) =
    toRat (Label.decodeMargin ⟨ofInt (-1 * (n + 1 : ℕ))⟩) := by
  decide +kernel

end Verif.Vertex
