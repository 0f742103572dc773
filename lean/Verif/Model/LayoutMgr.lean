import Verif.Model.File
import Verif.Model.Maps

/-! Model of `src/testing/layout_mgr.rs` and of `generate_layout_mgr` in `src/testing/test.rs`. -/

namespace BurnFm

/-- src/testing/layout_mgr.rs:3-12 `LayoutMgr`. -/
abbrev LayoutMgr := SMap Nat

/-- src/testing/layout_mgr.rs:14-16 `add_mapping`. -/
def LayoutMgr.addMapping (m : LayoutMgr) (name : Str) (occ : Nat) : LayoutMgr := SMap.insert m name occ

/-- src/testing/layout_mgr.rs:18-20 `lookup`. -/
def LayoutMgr.lookup (m : LayoutMgr) (name : Str) : Option Nat := SMap.get m name

/-- src/testing/test.rs:117-121 `generate_layout_mgr`; the layouts come in the map's iteration order. -/
def generateLayoutMgr (m : LayoutMgr) (layouts : HMap FLayout) : LayoutMgr :=
  layouts.foldl (fun m e => m.addMapping e.2.name e.2.tableOccurrence) m

end BurnFm
