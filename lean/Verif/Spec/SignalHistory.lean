import Verif.Model.SignalHistory

/-
What it means that the attributes of a signal fit its data.
-/

namespace Kp.Spec

variable {K X : Type}

/-- A detector has as many projection centers as its navigation shape says. -/
def WellFormed (d : Detector K) : Prop := d.pc.length = d.nav.prod

/-- The attributes of a signal fit its data: the detector has the shape of the patterns and either one
projection center or one per map point, the background has the shape of the patterns, and the
crystal map the shape of the map. -/
structure AttributesFit (s : LiveSignal K X) : Prop where
  nav_pos : 0 < s.nav.1 ∧ 0 < s.nav.2
  sig_pos : 0 < s.sig.1 ∧ 0 < s.sig.2
  detector_shape : s.attrs.detector.nrows = s.sig.1 ∧ s.attrs.detector.ncols = s.sig.2
  well_formed : WellFormed s.attrs.detector
  one_or_all : s.attrs.detector.pc.length = 1
    ∨ (s.attrs.detector.nav = [s.nav.1, s.nav.2] ∧ s.attrs.detector.pc.length = s.nav.1 * s.nav.2)
  background : ∀ b, s.attrs.background = some b → b.length = s.sig.1 ∧ ∀ r ∈ b, r.length = s.sig.2
  xmap : ∀ m, s.attrs.xmap = some m → m.shape = [s.nav.1, s.nav.2]

end Kp.Spec
