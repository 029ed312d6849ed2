import Verif.Model.Basic

/-! Boolean equality of exchange type constants, for `simp`. -/

namespace Ocelot

@[simp] theorem beq_referenceProduct_byproduct : (ExcType.referenceProduct == ExcType.byproduct) = false := rfl
@[simp] theorem beq_referenceProduct_fromTechnosphere : (ExcType.referenceProduct == ExcType.fromTechnosphere) = false := rfl
@[simp] theorem beq_referenceProduct_fromEnvironment : (ExcType.referenceProduct == ExcType.fromEnvironment) = false := rfl
@[simp] theorem beq_referenceProduct_toEnvironment : (ExcType.referenceProduct == ExcType.toEnvironment) = false := rfl
@[simp] theorem beq_referenceProduct_droppedProduct : (ExcType.referenceProduct == ExcType.droppedProduct) = false := rfl
@[simp] theorem beq_other_referenceProduct (s : String) : (ExcType.other s == ExcType.referenceProduct) = false := rfl
@[simp] theorem beq_byproduct_referenceProduct : (ExcType.byproduct == ExcType.referenceProduct) = false := rfl
@[simp] theorem beq_byproduct_fromTechnosphere : (ExcType.byproduct == ExcType.fromTechnosphere) = false := rfl
@[simp] theorem beq_byproduct_fromEnvironment : (ExcType.byproduct == ExcType.fromEnvironment) = false := rfl
@[simp] theorem beq_byproduct_toEnvironment : (ExcType.byproduct == ExcType.toEnvironment) = false := rfl
@[simp] theorem beq_byproduct_droppedProduct : (ExcType.byproduct == ExcType.droppedProduct) = false := rfl
@[simp] theorem beq_other_byproduct (s : String) : (ExcType.other s == ExcType.byproduct) = false := rfl
@[simp] theorem beq_fromTechnosphere_referenceProduct : (ExcType.fromTechnosphere == ExcType.referenceProduct) = false := rfl
@[simp] theorem beq_fromTechnosphere_byproduct : (ExcType.fromTechnosphere == ExcType.byproduct) = false := rfl
@[simp] theorem beq_fromTechnosphere_fromEnvironment : (ExcType.fromTechnosphere == ExcType.fromEnvironment) = false := rfl
@[simp] theorem beq_fromTechnosphere_toEnvironment : (ExcType.fromTechnosphere == ExcType.toEnvironment) = false := rfl
@[simp] theorem beq_fromTechnosphere_droppedProduct : (ExcType.fromTechnosphere == ExcType.droppedProduct) = false := rfl
@[simp] theorem beq_other_fromTechnosphere (s : String) : (ExcType.other s == ExcType.fromTechnosphere) = false := rfl
@[simp] theorem beq_fromEnvironment_referenceProduct : (ExcType.fromEnvironment == ExcType.referenceProduct) = false := rfl
@[simp] theorem beq_fromEnvironment_byproduct : (ExcType.fromEnvironment == ExcType.byproduct) = false := rfl
@[simp] theorem beq_fromEnvironment_fromTechnosphere : (ExcType.fromEnvironment == ExcType.fromTechnosphere) = false := rfl
@[simp] theorem beq_fromEnvironment_toEnvironment : (ExcType.fromEnvironment == ExcType.toEnvironment) = false := rfl
@[simp] theorem beq_fromEnvironment_droppedProduct : (ExcType.fromEnvironment == ExcType.droppedProduct) = false := rfl
@[simp] theorem beq_other_fromEnvironment (s : String) : (ExcType.other s == ExcType.fromEnvironment) = false := rfl
@[simp] theorem beq_toEnvironment_referenceProduct : (ExcType.toEnvironment == ExcType.referenceProduct) = false := rfl
@[simp] theorem beq_toEnvironment_byproduct : (ExcType.toEnvironment == ExcType.byproduct) = false := rfl
@[simp] theorem beq_toEnvironment_fromTechnosphere : (ExcType.toEnvironment == ExcType.fromTechnosphere) = false := rfl
@[simp] theorem beq_toEnvironment_fromEnvironment : (ExcType.toEnvironment == ExcType.fromEnvironment) = false := rfl
@[simp] theorem beq_toEnvironment_droppedProduct : (ExcType.toEnvironment == ExcType.droppedProduct) = false := rfl
@[simp] theorem beq_other_toEnvironment (s : String) : (ExcType.other s == ExcType.toEnvironment) = false := rfl
@[simp] theorem beq_droppedProduct_referenceProduct : (ExcType.droppedProduct == ExcType.referenceProduct) = false := rfl
@[simp] theorem beq_droppedProduct_byproduct : (ExcType.droppedProduct == ExcType.byproduct) = false := rfl
@[simp] theorem beq_droppedProduct_fromTechnosphere : (ExcType.droppedProduct == ExcType.fromTechnosphere) = false := rfl
@[simp] theorem beq_droppedProduct_fromEnvironment : (ExcType.droppedProduct == ExcType.fromEnvironment) = false := rfl
@[simp] theorem beq_droppedProduct_toEnvironment : (ExcType.droppedProduct == ExcType.toEnvironment) = false := rfl
@[simp] theorem beq_other_droppedProduct (s : String) : (ExcType.other s == ExcType.droppedProduct) = false := rfl

end Ocelot
