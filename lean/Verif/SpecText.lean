import Verif.Model.Text

/-! Reading a text line by line, as scripts do (specification for C121). -/

namespace Ksusig.Spec

/-- `s` is one of the lines of `text`. -/
def IsLine (s text : List Char) : Prop :=
  '\n' ∉ s ∧ ∃ pre post, text = pre ++ s ++ '\n' :: post ∧ (pre = [] ∨ ∃ p, pre = p ++ ['\n'])

/-- The names of the files, the descriptions of certificates and the messages of libraries have no line breaks. -/
def Unbroken (W : Words) : Prop :=
  '\n' ∉ W.file ∧ '\n' ∉ W.root ∧
  (∀ c s i b a, W.fields c = some (s, i, b, a) → '\n' ∉ s ∧ '\n' ∉ i ∧ '\n' ∉ b ∧ '\n' ∉ a) ∧ ∀ m, W.library m → '\n' ∉ m

end Ksusig.Spec
