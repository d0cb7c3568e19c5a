/-
The line types of the three-phase networks, src/simulation/net_templates_3ph.py:168-208.

Numbers are written as in the source and are exact here. Of a type, the resistances and reactances per kilometre are kept; the
capacitances are zero and the current limit is not used. That a line of length `l` has `l` times the impedance of its type is done by
pandapower.
-/
import Verif.Model.Templates

namespace Verif
noncomputable section

/-- `r_ohm_per_km`, `x_ohm_per_km`, `r0_ohm_per_km`, `x0_ohm_per_km` of a standard type -/
structure LineType where
  r : ℝ
  x : ℝ
  r0 : ℝ
  x0 : ℝ

/-- `Z3_0_og`, line 184 -/
def z30og : ℂ := ((⟨0.087, 0.20⟩ : ℂ) + 2 * ⟨0.029, 0.08⟩) / ((0.3 : ℝ) : ℂ)

/-- `Z3_1_og`, line 185 -/
def z31og : ℂ := ((⟨0.087, 0.20⟩ : ℂ) - ⟨0.029, 0.08⟩) / ((0.3 : ℝ) : ℂ)

/-- `Z1_1_og`, line 186 -/
def z11og : ℂ := (⟨0.25, 0.25⟩ : ℂ) / ((0.3 : ℝ) : ℂ)

/-- `Z1_0_og`, line 187: divided once more -/
def z10og : ℂ := z11og / ((0.3 : ℝ) : ℂ)

/-- `Z3_0_ug`, line 189 -/
def z30ug : ℂ := ((⟨0.29, 0.14⟩ : ℂ) + 2 * ⟨0.095, 0.05⟩) / ((0.3 : ℝ) : ℂ)

/-- `Z3_1_ug`, line 190 -/
def z31ug : ℂ := ((⟨0.29, 0.14⟩ : ℂ) - ⟨0.095, 0.05⟩) / ((0.3 : ℝ) : ℂ)

/-- `ieee123_types[name]`, lines 192-208 -/
def lineType (name : String) : Option LineType :=
  if name = "OG3" then some ⟨z31og.re, z31og.im, z30og.re, z30og.im⟩
  else if name = "UG3" then some ⟨z31ug.re, z31ug.im, z30ug.re, z30ug.im⟩
  else if name = "OG1" then some ⟨z11og.re, z11og.im, z10og.re, z10og.im⟩
  else if name = "UG3CIGRE" then some ⟨z31ug.re / 3, 3 * z31ug.im / 3, 3 * z30ug.re / 3, 3 * z30ug.im / 3⟩
  else none

end
end Verif
