import Verif.FitFuncs

/-!
# Model: the formulas printed by the fit classes (`TeX_function`)

The texts, line by line, exactly as in `/repo/solarwindpy/fitfunctions`; the code joins the lines with a newline.
-/

namespace SW
namespace Tex

/-- `Line.TeX_function`, lines.py:63 -/
def texLine : List String := ["f(x)=m \\cdot x + b"]
/-- `LineXintercept.TeX_function`, lines.py:136 -/
def texLineX : List String := ["f(x)=m \\cdot (x - x_0)"]
/-- `Gaussian.TeX_function`, gaussians.py:48 -/
def texGaussian : List String := ["f(x)=A \\cdot e^{-\\frac{1}{2} \\left(\\frac{x-\\mu}{\\sigma}\\right)^2}"]
/-- `GaussianNormalized.TeX_function`, gaussians.py:102 -/
def texGaussianNorm : List String := ["f(x)=\\frac{n}{\\sqrt{2 \\pi} \\sigma} e^{-\\frac{1}{2} \\left(\\frac{x-\\mu}{\\sigma}\\right)^2}"]
/-- `GaussianLn.TeX_function`, gaussians.py:176-184 (the text assigned first, 171-175, is overwritten) -/
def texGaussianLn : List String := ["f(x) =A \\cdot\\exp\\left[\\frac{\\left(\\ln x - m\\right)^2}{2 s^2}\\right]"]
/-- `Exponential.TeX_function`, exponentials.py:43 -/
def texExponential : List String := ["f(x)=A \\cdot e^{-cx}"]
/-- `ExponentialPlusC.TeX_function`, exponentials.py:75 -/
def texExponentialPlusC : List String := ["f(x)=A \\cdot e^{-cx} + d"]
/-- `ExponentialCDF.TeX_function`, exponentials.py:114 -/
def texExponentialCDF : List String := ["f(x)=A \\left(1 - e^{-cx}\\right)"]
/-- `PowerLaw.TeX_function`, power_laws.py:52 -/
def texPowerLaw : List String := ["f(x)=A x^b"]
/-- `PowerLawPlusC.TeX_function`, power_laws.py:104 -/
def texPowerLawPlusC : List String := ["f(x)=A x^b + c"]
/-- `PowerLawOffCenter.TeX_function`, power_laws.py:147 -/
def texPowerLawOffCenter : List String := ["f(x)=A (x-x_0)^b"]
/-- `Moyal.TeX_function`, moyal.py:74 -/
def texMoyal : List String := ["f(x) = A \\cdot \\exp\\left[\\frac{1}{2}\\left(\\left(\\frac{x-\\mu}{\\sigma}\\right)^2 - \\exp\\left(\\left(\\frac{x-\\mu}{\\sigma}\\right)^2\\right)\\right)\\right]"]
/-- `HeavySide.TeX_function`, heaviside.py:177-183 -/
def texHeavySide : List String := ["f(x) = y_1 \\cdot H(x_0 - x) + y_0", "x < x_0: f(x) = y_0 + y_1", "x > x_0: f(x) = y_0"]
/-- `GaussianPlusHeavySide.TeX_function`, composite.py:191-196 -/
def texGaussianPlusHS : List String :=
  ["f(x)=A \\cdot e^{-\\frac{1}{2} (\\frac{x-\\mu}{\\sigma})^2} +", "\\left(y_1 \\cdot H(x_0 - x) + y_0\\right)"]
/-- `GaussianTimesHeavySide.TeX_function`, composite.py:363-365 -/
def texGaussianTimesHS : List String := ["f(x)=A \\cdot e^{-\\frac{1}{2} (\\frac{x-\\mu}{\\sigma})^2} \\times H(x - x_0)"]
/-- `GaussianTimesHeavySidePlusHeavySide.TeX_function`, composite.py:553-558 -/
def texGaussianTimesPlusHS : List String :=
  ["f(x)=A \\cdot e^{-\\frac{1}{2} (\\frac{x-\\mu}{\\sigma})^2} \\times H(x - x_0) + ", "y_1 \\cdot H(x_0 - x)"]
/-- `HingeSaturation.TeX_function`, hinge.py:188-195 -/
def texHingeSaturation : List String :=
  ["f(x)=\\min(y_1, \\, y_2)", "y_i = m_i(x-x_i)", "m_1 = \\frac{y_h}{x_h - x_1}", "x_2 = x_h - \\frac{y_h}{m_2}"]
/-- `TwoLine.TeX_function`, hinge.py:416-421 -/
def texTwoLine : List String := ["f(x) \\, =\\min\\left(y_1, \\, y_2\\right)", "y_i = m_i(x - x_i)"]
/-- `Saturation.TeX_function`, hinge.py:655-663 -/
def texSaturation : List String :=
  ["f \\, \\left(x, x_1, x_s, s, \\theta\\right)=\\min\\left(y_1, \\, y_2\\right)", "y_i = m_i(x - x_i)",
   "x_s = \\frac{m_2 x_2 - m_1 x_1}{m_2 - m_1}", "s = m_i (x_s - x_i)", "\\theta = \\arctan\\left(\\frac{m_1 - m_2}{1 + m_1 m_2}\\right)"]
/-- `HingeMin.TeX_function`, hinge.py:873-878 -/
def texHingeMin : List String := ["f(x)=\\min(m_1(x-x_1), \\, m_2(x-x_2))", "m_2 = m_1 \\frac{h - x_1}{h - x_2}"]
/-- `HingeMax.TeX_function`, hinge.py:1091-1096 -/
def texHingeMax : List String := ["f(x)=\\max(m_1(x-x_1), \\, m_2(x-x_2))", "m_2 = m_1 \\frac{h - x_1}{h - x_2}"]
/-- `HingeAtPoint.TeX_function`, hinge.py:1290-1296 -/
def texHingeAtPoint : List String := ["f(x)=\\min(y_1, \\, y_2)", "y_i = m_i(x-x_i)", "x_i = x_h - \\frac{y_h}{m_i}"]

/-- all of them -/
def texAll : List (List String) := [texLine, texLineX, texGaussian, texGaussianNorm, texGaussianLn, texExponential, texExponentialPlusC,
  texExponentialCDF, texPowerLaw, texPowerLawPlusC, texPowerLawOffCenter, texMoyal, texHeavySide, texGaussianPlusHS, texGaussianTimesHS,
  texGaussianTimesPlusHS, texHingeSaturation, texTwoLine, texSaturation, texHingeMin, texHingeMax, texHingeAtPoint]

end Tex
end SW
