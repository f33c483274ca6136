import Verif.Spec.LocalText
import Verif.Spec.XmlComments
/-! Specification vocabulary for local texts with comments (C110). -/
namespace Verif.Spec
open Verif.Py Verif.Model

/-- No fixed step of the scheme is a bare `*`. (The last step of a level always has a test.) -/
def NoBareStar (ls : List Level) : Prop := ∀ l ∈ ls, ∀ s ∈ l.pre, s.name = ['*'] → s.tests ≠ []

end Verif.Spec
