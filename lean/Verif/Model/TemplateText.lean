import Verif.Model.Template
import Verif.Model.LogText

/-!
# What is said about a malformed path template
-/

namespace Demag

/-- src/torrent.rs:305-314 `Display for PathTemplateError`.  `plain` is as in `LogEnv` (Model/LogText.lean). -/
def PathTemplateError.text (plain : Char → Bool) : PathTemplateError → Text
  | .unmatched i => "unmatched brace at byte index ".toList ++ decimal i
  | .invalidField i => "malformed placeholder at byte index ".toList ++ decimal i
  | .unknownField f => "unknown placeholder ".toList ++ debugText plain f

end Demag
