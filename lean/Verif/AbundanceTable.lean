import Verif.Spacecraft

/-!
# The reference abundances shipped with the package (generated by tools/abundance_table.py)

Models `/repo/solarwindpy/core/data/asplund2009.csv:8-90`, `/repo/solarwindpy/core/data/asplund2021.csv:8-90` as read by
`/repo/solarwindpy/core/abundances.py:108-128`.  Abundances and uncertainties are in thousandths; `none` is an empty field.
-/

namespace SW

/-- one line: Z, symbol, chondrites (Ab, Uncert), photosphere (Ab, Uncert), comment -/
structure TRow where
  z : Int
  sym : String
  ci : Option Int × Option Int
  ph : Option Int × Option Int
  comment : String
  deriving DecidableEq

/-- asplund2009.csv:8-90 -/
def asplund2009 : List TRow := [
  ⟨1, "H", (some 8220, some 40), (some 12000, none), ""⟩,
  ⟨2, "He", (some 1290, none), (some 10930, some 10), ""⟩,
  ⟨3, "Li", (some 3260, some 50), (some 1050, some 100), ""⟩,
  ⟨4, "Be", (some 1300, some 30), (some 1380, some 90), ""⟩,
  ⟨5, "B", (some 2790, some 40), (some 2700, some 200), ""⟩,
  ⟨6, "C", (some 7390, some 40), (some 8430, some 50), ""⟩,
  ⟨7, "N", (some 6260, some 60), (some 7830, some 50), ""⟩,
  ⟨8, "O", (some 8400, some 40), (some 8690, some 50), ""⟩,
  ⟨9, "F", (some 4420, some 60), (some 4560, some 300), ""⟩,
  ⟨10, "Ne", (some (-1120), none), (some 7930, some 100), ""⟩,
  ⟨11, "Na", (some 6270, some 20), (some 6240, some 40), ""⟩,
  ⟨12, "Mg", (some 7530, some 10), (some 7600, some 40), ""⟩,
  ⟨13, "Al", (some 6430, some 10), (some 6450, some 30), ""⟩,
  ⟨14, "Si", (some 7510, some 10), (some 7510, some 30), ""⟩,
  ⟨15, "P", (some 5430, some 40), (some 5410, some 30), ""⟩,
  ⟨16, "S", (some 7150, some 20), (some 7120, some 30), ""⟩,
  ⟨17, "Cl", (some 5230, some 60), (some 5500, some 300), ""⟩,
  ⟨18, "Ar", (some (-50), none), (some 6400, some 130), ""⟩,
  ⟨19, "K", (some 5080, some 20), (some 5030, some 90), ""⟩,
  ⟨20, "Ca", (some 6290, some 20), (some 6340, some 40), ""⟩,
  ⟨21, "Sc", (some 3050, some 20), (some 3150, some 40), ""⟩,
  ⟨22, "Ti", (some 4910, some 30), (some 4950, some 50), ""⟩,
  ⟨23, "V", (some 3960, some 20), (some 3930, some 80), ""⟩,
  ⟨24, "Cr", (some 5640, some 10), (some 5640, some 40), ""⟩,
  ⟨25, "Mn", (some 5480, some 10), (some 5430, some 40), ""⟩,
  ⟨26, "Fe", (some 7450, some 10), (some 7500, some 40), ""⟩,
  ⟨27, "Co", (some 4870, some 10), (some 4990, some 70), ""⟩,
  ⟨28, "Ni", (some 6200, some 10), (some 6220, some 40), ""⟩,
  ⟨29, "Cu", (some 4250, some 40), (some 4190, some 40), ""⟩,
  ⟨30, "Zn", (some 4630, some 40), (some 4560, some 50), ""⟩,
  ⟨31, "Ga", (some 3080, some 20), (some 3040, some 90), ""⟩,
  ⟨32, "Ge", (some 3580, some 40), (some 3650, some 100), ""⟩,
  ⟨33, "As", (some 2300, some 40), (none, none), ""⟩,
  ⟨34, "Se", (some 3340, some 30), (none, none), ""⟩,
  ⟨35, "Br", (some 2540, some 60), (none, none), ""⟩,
  ⟨36, "Kr", (some (-2270), none), (some 3250, some 60), ""⟩,
  ⟨37, "Rb", (some 2360, some 30), (some 2520, some 100), ""⟩,
  ⟨38, "Sr", (some 2880, some 30), (some 2870, some 70), ""⟩,
  ⟨39, "Y", (some 2170, some 40), (some 2210, some 50), ""⟩,
  ⟨40, "Zr", (some 2530, some 40), (some 2580, some 40), ""⟩,
  ⟨41, "Nb", (some 1410, some 40), (some 1460, some 40), ""⟩,
  ⟨42, "Mo", (some 1940, some 40), (some 1880, some 80), ""⟩,
  ⟨44, "Ru", (some 1760, some 30), (some 1750, some 80), ""⟩,
  ⟨45, "Rh", (some 1060, some 40), (some 910, some 100), ""⟩,
  ⟨46, "Pd", (some 1650, some 20), (some 1570, some 100), ""⟩,
  ⟨47, "Ag", (some 1200, some 20), (some 940, some 100), ""⟩,
  ⟨48, "Cd", (some 1710, some 30), (none, none), ""⟩,
  ⟨49, "In", (some 760, some 30), (some 800, some 200), ""⟩,
  ⟨50, "Sn", (some 2070, some 60), (some 2040, some 100), ""⟩,
  ⟨51, "Sb", (some 1010, some 60), (none, none), ""⟩,
  ⟨52, "Te", (some 2180, some 30), (none, none), ""⟩,
  ⟨53, "I", (some 1550, some 80), (none, none), ""⟩,
  ⟨54, "Xe", (some (-1950), none), (some 2240, some 60), ""⟩,
  ⟨55, "Cs", (some 1080, some 20), (none, none), ""⟩,
  ⟨56, "Ba", (some 2180, some 30), (some 2180, some 90), ""⟩,
  ⟨57, "La", (some 1170, some 20), (some 1100, some 40), ""⟩,
  ⟨58, "Ce", (some 1580, some 20), (some 1580, some 40), ""⟩,
  ⟨59, "Pr", (some 760, some 30), (some 720, some 40), ""⟩,
  ⟨60, "Nd", (some 1450, some 20), (some 1420, some 40), ""⟩,
  ⟨62, "Sm", (some 940, some 20), (some 960, some 40), ""⟩,
  ⟨63, "Eu", (some 510, some 20), (some 520, some 40), ""⟩,
  ⟨64, "Gd", (some 1050, some 20), (some 1070, some 40), ""⟩,
  ⟨65, "Tb", (some 320, some 30), (some 300, some 100), ""⟩,
  ⟨66, "Dy", (some 1130, some 20), (some 1100, some 40), ""⟩,
  ⟨67, "Ho", (some 470, some 30), (some 480, some 110), ""⟩,
  ⟨68, "Er", (some 920, some 20), (some 920, some 50), ""⟩,
  ⟨69, "Tm", (some 120, some 30), (some 100, some 40), ""⟩,
  ⟨70, "Yb", (some 920, some 20), (some 840, some 110), ""⟩,
  ⟨71, "Lu", (some 90, some 20), (some 100, some 90), ""⟩,
  ⟨72, "Hf", (some 710, some 20), (some 850, some 40), ""⟩,
  ⟨73, "Ta", (some (-120), some 40), (none, none), ""⟩,
  ⟨74, "W", (some 650, some 40), (some 850, some 120), ""⟩,
  ⟨75, "Re", (some 260, some 40), (none, none), ""⟩,
  ⟨76, "Os", (some 1350, some 30), (some 1400, some 80), ""⟩,
  ⟨77, "Ir", (some 1320, some 20), (some 1380, some 70), ""⟩,
  ⟨78, "Pt", (some 1620, some 30), (none, none), ""⟩,
  ⟨79, "Au", (some 800, some 40), (some 920, some 100), ""⟩,
  ⟨80, "Hg", (some 1170, some 80), (none, none), ""⟩,
  ⟨81, "Tl", (some 770, some 30), (some 900, some 200), ""⟩,
  ⟨82, "Pb", (some 2040, some 30), (some 1750, some 100), ""⟩,
  ⟨83, "Bi", (some 650, some 40), (none, none), ""⟩,
  ⟨90, "Th", (some 60, some 30), (some 20, some 100), ""⟩,
  ⟨92, "U", (some (-540), some 30), (none, none), ""⟩]

/-- asplund2021.csv:8-90 -/
def asplund2021 : List TRow := [
  ⟨1, "H", (some 8220, some 40), (some 12000, some 0), "definition"⟩,
  ⟨2, "He", (some 1290, some 180), (some 10914, some 13), "helioseismology"⟩,
  ⟨3, "Li", (some 3250, some 40), (some 960, some 60), "meteorites"⟩,
  ⟨4, "Be", (some 1320, some 30), (some 1380, some 90), ""⟩,
  ⟨5, "B", (some 2790, some 40), (some 2700, some 200), ""⟩,
  ⟨6, "C", (some 7390, some 40), (some 8460, some 40), ""⟩,
  ⟨7, "N", (some 6260, some 60), (some 7830, some 70), ""⟩,
  ⟨8, "O", (some 8390, some 40), (some 8690, some 40), ""⟩,
  ⟨9, "F", (some 4420, some 60), (some 4400, some 250), ""⟩,
  ⟨10, "Ne", (none, some 180), (some 8060, some 50), "solar wind"⟩,
  ⟨11, "Na", (some 6270, some 40), (some 6220, some 30), ""⟩,
  ⟨12, "Mg", (some 7530, some 20), (some 7550, some 30), ""⟩,
  ⟨13, "Al", (some 6430, some 30), (some 6430, some 30), ""⟩,
  ⟨14, "Si", (some 7510, some 10), (some 7510, some 30), ""⟩,
  ⟨15, "P", (some 5430, some 30), (some 5410, some 30), ""⟩,
  ⟨16, "S", (some 7150, some 20), (some 7120, some 30), ""⟩,
  ⟨17, "Cl", (some 5230, some 60), (some 5310, some 200), ""⟩,
  ⟨18, "Ar", (none, some 180), (some 6380, some 100), "solar wind"⟩,
  ⟨19, "K", (some 5080, some 40), (some 5070, some 30), ""⟩,
  ⟨20, "Ca", (some 6290, some 30), (some 6300, some 30), ""⟩,
  ⟨21, "Sc", (some 3040, some 30), (some 3140, some 40), ""⟩,
  ⟨22, "Ti", (some 4900, some 30), (some 4970, some 50), ""⟩,
  ⟨23, "V", (some 3960, some 30), (some 3900, some 80), ""⟩,
  ⟨24, "Cr", (some 5630, some 20), (some 5620, some 40), ""⟩,
  ⟨25, "Mn", (some 5470, some 30), (some 5420, some 60), ""⟩,
  ⟨26, "Fe", (some 7460, some 20), (some 7460, some 40), ""⟩,
  ⟨27, "Co", (some 4870, some 20), (some 4940, some 50), ""⟩,
  ⟨28, "Ni", (some 6200, some 30), (some 6200, some 40), ""⟩,
  ⟨29, "Cu", (some 4250, some 60), (some 4180, some 50), ""⟩,
  ⟨30, "Zn", (some 4610, some 20), (some 4560, some 50), ""⟩,
  ⟨31, "Ga", (some 3070, some 30), (some 3020, some 50), ""⟩,
  ⟨32, "Ge", (some 3580, some 40), (some 3620, some 100), ""⟩,
  ⟨33, "As", (some 2300, some 40), (none, none), "meteorites"⟩,
  ⟨34, "Se", (some 3340, some 30), (none, none), "meteorites"⟩,
  ⟨35, "Br", (some 2540, some 60), (none, none), "meteorites"⟩,
  ⟨36, "Kr", (none, some 180), (some 3120, some 100), "solar wind"⟩,
  ⟨37, "Rb", (some 2370, some 30), (some 2320, some 80), ""⟩,
  ⟨38, "Sr", (some 2880, some 30), (some 2830, some 60), ""⟩,
  ⟨39, "Y", (some 2150, some 20), (some 2210, some 50), ""⟩,
  ⟨40, "Zr", (some 2530, some 20), (some 2590, some 40), ""⟩,
  ⟨41, "Nb", (some 1420, some 40), (some 1470, some 60), ""⟩,
  ⟨42, "Mo", (some 1930, some 40), (some 1880, some 90), ""⟩,
  ⟨44, "Ru", (some 1770, some 20), (some 1750, some 80), ""⟩,
  ⟨45, "Rh", (some 1040, some 20), (some 780, some 110), ""⟩,
  ⟨46, "Pd", (some 1650, some 20), (some 1570, some 100), ""⟩,
  ⟨47, "Ag", (some 1200, some 40), (some 960, some 100), ""⟩,
  ⟨48, "Cd", (some 1710, some 30), (none, none), "meteorites"⟩,
  ⟨49, "In", (some 760, some 20), (some 800, some 200), ""⟩,
  ⟨50, "Sn", (some 2070, some 60), (some 2020, some 100), ""⟩,
  ⟨51, "Sb", (some 1010, some 60), (none, none), "meteorites"⟩,
  ⟨52, "Te", (some 2180, some 30), (none, none), "meteorites"⟩,
  ⟨53, "I", (some 1550, some 80), (none, none), "meteorites"⟩,
  ⟨54, "Xe", (none, some 180), (some 2220, some 50), "nuclear physics"⟩,
  ⟨55, "Cs", (some 1080, some 30), (none, none), "meteorites"⟩,
  ⟨56, "Ba", (some 2180, some 20), (some 2270, some 50), ""⟩,
  ⟨57, "La", (some 1170, some 10), (some 1110, some 40), ""⟩,
  ⟨58, "Ce", (some 1580, some 10), (some 1580, some 40), ""⟩,
  ⟨59, "Pr", (some 760, some 10), (some 750, some 50), ""⟩,
  ⟨60, "Nd", (some 1450, some 10), (some 1420, some 40), ""⟩,
  ⟨62, "Sm", (some 940, some 10), (some 950, some 40), ""⟩,
  ⟨63, "Eu", (some 520, some 10), (some 520, some 40), ""⟩,
  ⟨64, "Gd", (some 1050, some 10), (some 1080, some 40), ""⟩,
  ⟨65, "Tb", (some 310, some 10), (some 310, some 100), ""⟩,
  ⟨66, "Dy", (some 1130, some 10), (some 1100, some 40), ""⟩,
  ⟨67, "Ho", (some 470, some 10), (some 480, some 110), ""⟩,
  ⟨68, "Er", (some 930, some 10), (some 930, some 50), ""⟩,
  ⟨69, "Tm", (some 120, some 10), (some 110, some 40), ""⟩,
  ⟨70, "Yb", (some 920, some 10), (some 850, some 110), ""⟩,
  ⟨71, "Lu", (some 90, some 10), (some 100, some 90), ""⟩,
  ⟨72, "Hf", (some 710, some 10), (some 850, some 50), ""⟩,
  ⟨73, "Ta", (some (-150), some 40), (none, none), "meteorites"⟩,
  ⟨74, "W", (some 650, some 40), (some 790, some 110), ""⟩,
  ⟨75, "Re", (some 260, some 20), (none, none), "meteorites"⟩,
  ⟨76, "Os", (some 1350, some 20), (some 1350, some 120), ""⟩,
  ⟨77, "Ir", (some 1320, some 20), (none, none), "meteorites"⟩,
  ⟨78, "Pt", (some 1610, some 20), (none, none), "meteorites"⟩,
  ⟨79, "Au", (some 810, some 50), (some 910, some 120), ""⟩,
  ⟨80, "Hg", (some 1170, some 180), (none, none), "meteorites"⟩,
  ⟨81, "Tl", (some 770, some 50), (some 920, some 170), ""⟩,
  ⟨82, "Pb", (some 2030, some 30), (some 1950, some 80), ""⟩,
  ⟨83, "Bi", (some 650, some 40), (none, none), "meteorites"⟩,
  ⟨90, "Th", (some 40, some 30), (some 30, some 100), ""⟩,
  ⟨92, "U", (some (-540), some 30), (none, none), "meteorites"⟩]

end SW
