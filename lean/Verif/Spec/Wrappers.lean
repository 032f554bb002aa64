import Verif.Spec.Sound
import Verif.Spec.Schema
import Verif.Zod.Parse

/-!
# Programs with and without wrappers (specification)
-/

namespace Verif.Spec
open Verif Verif.Js Verif.Schema Verif.SchemaSpec Verif.Zod

/-- The program with `Box`, `Arc`, `Rc`, `Cow`, `Cell`, `RefCell`, `Mutex`, `Weak` and `PhantomData` removed from all its types. -/
def withoutWrappers (P : Program) : Program := P.map (Decl.mapTy strip)

/-- Loading the module throws nothing: every declared type has a schema. -/
def Loads (P : Program) (E : ZEnv) : Prop := ∀ d ∈ P, E.const d.ns d.name ≠ none

/-- Parsing ends with an error. -/
def Rejects (E : ZEnv) (z : ZSchema) (v : JsVal) : Prop := ∃ n, parse E n z v = some none

end Verif.Spec
