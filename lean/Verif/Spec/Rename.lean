import Verif.Spec.Sound

/-!
# Programs whose types have other names (specification)
-/

namespace Verif.Spec
open Verif Verif.Schema

/-- The declaration in the namespace and with the name that `f` gives for its own. -/
def renameDecl (f : Str → Str → Str × Str) : Decl → Decl
  | .struct s => .struct { s with ns := (f s.ns s.name).1, name := (f s.ns s.name).2 }
  | .enum e => .enum { e with ns := (f e.ns e.name).1, name := (f e.ns e.name).2 }

/-- The program with other namespaces and names. Types refer to declarations by their place, so the references follow. -/
def renameProgram (f : Str → Str → Str × Str) (P : Program) : Program := P.map (renameDecl f)

end Verif.Spec
