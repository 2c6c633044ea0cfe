import Verif.Values
/-
Specification vocabulary for BFloat16: does a value contain one, at any depth?
-/
namespace Klick
namespace Spec

mutual
/-- Does the value contain a BFloat16 anywhere? -/
def HoldsBf16 : Value → Prop
  | .bfloat16 _ => True
  | .array xs => HoldsBf16Any xs
  | .tuple xs => HoldsBf16Any xs
  | .map ks vs => HoldsBf16Any ks ∨ HoldsBf16Any vs
  | _ => False
/-- Does any of the values? -/
def HoldsBf16Any : List Value → Prop
  | [] => False
  | x :: xs => HoldsBf16 x ∨ HoldsBf16Any xs
end

end Spec
end Klick
