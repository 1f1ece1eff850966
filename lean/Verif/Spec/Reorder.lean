/-
Values that are the same Go value, up to the order in which maps are iterated.
-/
import Verif.Model.Val
namespace Verif.Spec

/-- `w` arises from `v` by listing the entries of maps, at any depth, in another order. -/
inductive Reorder : Val → Val → Prop
  | refl (v : Val) : Reorder v v
  | trans {u v w : Val} : Reorder u v → Reorder v w → Reorder u w
  | perm {es fs : Entries} : es.Perm fs → Reorder (.map es) (.map fs)
  | inList (i : Bool) (pre post : List Val) {v w : Val} : Reorder v w → Reorder (.list i (pre ++ v :: post)) (.list i (pre ++ w :: post))
  | inMap (pre post : Entries) (k : Bytes) {v w : Val} : Reorder v w → Reorder (.map (pre ++ (k, v) :: post)) (.map (pre ++ (k, w) :: post))
  | inStruct (k : StructKind) (pre post : List Val) {v w : Val} :
      Reorder v w → Reorder (.struct k (pre ++ v :: post)) (.struct k (pre ++ w :: post))

end Verif.Spec
