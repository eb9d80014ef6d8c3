import Verif.Model.Basic

/-! A concrete `Host`, for examples only. -/

namespace Bracket

/-- A `Host` for concrete examples; the float functions are not exercised. -/
@[reducible] def exHost : Host :=
  ⟨fun _ => none, fun _ => [], fun s => s.length, .posInt 0, true⟩

end Bracket
