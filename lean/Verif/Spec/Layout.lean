import Verif.Model.NdArray

/-! Memory layouts. -/

namespace Verif.Nd

/-- The layouts accepted by `into_shape`: row-major, or column-major of rank at least two. -/
def Contig (shape : List Nat) (strides : List Int) : Prop :=
  isStandard shape strides = true ∨ (1 < shape.length ∧ isStandard shape.reverse strides.reverse = true)

instance (shape : List Nat) (strides : List Int) : Decidable (Contig shape strides) := inferInstanceAs (Decidable (_ ∨ _))

end Verif.Nd
