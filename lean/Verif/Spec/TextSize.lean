import Verif.Model.NTriples

/-! How much longer texts may get when they are parsed by other crates. -/

namespace Rdftk.Spec

/-- IRIs and language tags are at most `c` times as long, once parsed, as the texts that they were parsed from. -/
structure GrowsBy (c : Nat) (env : ReadEnv) : Prop where
  url : ∀ t i, env.url t = some i → i.text.length ≤ c * t.length
  lang : ∀ t g, env.lang t = some g → g.length ≤ c * t.length

end Rdftk.Spec
