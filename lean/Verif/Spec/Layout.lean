import Verif.Model.File

/-! What a layout name means. -/

namespace BurnFm.Spec

/-- No two layouts of the file have the same name. -/
def DistinctLayoutNames (layouts : HMap FLayout) : Prop := (layouts.map (·.2.name)).Nodup

end BurnFm.Spec
