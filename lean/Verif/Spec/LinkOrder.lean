import Verif.Spec.ModuleOf

/-!
# Modules that differ in the order of declarations (specification)
-/

namespace Verif.Spec
open Verif Verif.Js

/-- The same namespaces in the same order, each with the same declarations in some order. -/
def Shuffled (M M' : List Ns) : Prop := All2 (fun N N' : Ns => N'.name = N.name ∧ N.items.Perm N'.items) M M'

end Verif.Spec
