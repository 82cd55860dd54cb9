{
 "mkPlasma|species stored unsplit": {
  "theorems": [],
  "note": "equivalent in practice: a construction with the comma form fails before the stored species matters (C03_comma_form_fails)"
 },
 "savePlasma|an absent spacecraft erases the key": {
  "theorems": [
   "C92_save_keeps_stale_spacecraft",
   "C92_load_attaches_stale"
  ]
 },
 "loadPlasma|missing sc name/frame ignored": {
  "theorems": [
   "C08_save_load_core",
   "C08_spacecraft_needs_identity"
  ]
 },
 "bPressure|factor 2 dropped": {
  "theorems": [
   "C16_magnetic_pressure"
  ]
 },
 "vectorSetData|stores an invalid frame": {
  "theorems": [
   "C93_invalid_rejected"
  ]
 },
 "velocity|projected com velocity returned unprojected": {
  "theorems": [
   "C12_projected"
  ]
 },
 "getElement|ambiguous accepted": {
  "theorems": [
   "C35_lookup"
  ]
 },
 "flSign|sign(0)=1": {
  "theorems": [
   "C98_polarity"
  ]
 },
 "turbSet|default min_periods": {
  "theorems": [
   "C39_defaults"
  ]
 },
 "raffV|spiral speed added": {
  "theorems": [
   "C98_stored"
  ]
 },
 "spiralCorrection|cosine inverted": {
  "theorems": [
   "C98_stored"
  ]
 },
 "raffPolarity|y term dropped": {
  "theorems": [
   "C98_polarity"
  ]
 },
 "twoLineP0|order of guess": {
  "theorems": [
   "C152_twoLine"
  ]
 },
 "twoLineP0|boundary": {
  "theorems": [
   "C152_sufficient"
  ]
 },
 "saturationP0|theta": {
  "theorems": [
   "C152_saturation"
  ]
 },
 "heavySideP0|step not relative": {
  "theorems": [
   "C152_heavySide"
  ]
 },
 "gaussianLnP0|amplitude not logged (fixed)": {
  "theorems": [
   "C153_amplitude"
  ]
 },
 "npMedian|index": {
  "theorems": [
   "C152_heavySide"
  ]
 },
 "escapeAll|list lost on failure": {
  "theorems": [
   "C106_partial_mutation"
  ]
 },
 "rename|missing ignored": {
  "theorems": [
   "C107_missing"
  ]
 },
 "xs|missing species ignored": {
  "theorems": [
   "C59_missing"
  ]
 },
 "params|parameter": {
  "theorems": [
   "C60_published"
  ]
 },
 "bin|mask (same outcome?)": {
  "theorems": [],
  "note": "equivalent mutant: no observable effect"
 },
 "bin|fill value returned (unreachable?)": {
  "theorems": [],
  "note": "equivalent mutant: no observable effect"
 },
 "cellFilter|dense cells kept": {
  "theorems": [
   "C133_density_filter"
  ]
 },
 "cellFilter|both filters": {
  "theorems": [
   "C133_density_filter"
  ]
 },
 "squeezeShape|length-1 axes dropped": {
  "theorems": [
   "C83_shape"
  ]
 },
 "axisVal|decimal logarithm": {
  "theorems": [
   "C135_sample"
  ]
 },
 "formatExtrema|maxima shifted if they start first": {
  "theorems": [
   "C117_first_maximum"
  ]
 },
 "formatExtrema|no maximum dropped": {
  "theorems": [
   "C117_first_maximum"
  ]
 },
 "durations|sign": {
  "theorems": [
   "C70_durations"
  ]
 },
 "rawEdges|constant data: unit range": {
  "theorems": [
   "C73_constant_data"
  ]
 },
 "rawEdges|zero bins refused": {
  "theorems": [
   "C73_explicit_edges"
  ]
 },
 "rawEdges|unsorted edges refused": {
  "theorems": [
   "C73_explicit_edges"
  ]
 },
 "calcEdges|error kind": {
  "theorems": [
   "C73_explicit_edges"
  ]
 },
 "setAxnorm1|empty string": {
  "theorems": [
   "C125_axnorm"
  ]
 },
 "setData2|missing z dropped": {
  "theorems": [
   "C74_data2"
  ]
 },
 "transUnits|thermal speed in km/s": {
  "theorems": [
   "C86_table"
  ]
 },
 "labelPath|numerator first": {
  "theorems": [
   "C140_structure"
  ]
 },
 "labelPath|normalisation in path": {
  "theorems": [
   "C140_structure"
  ]
 },
 "species|proton text": {
  "theorems": [
   "C136_text"
  ]
 },
 "species|isotope text": {
  "theorems": [
   "C136_text"
  ]
 },
 "ratioPath|order": {
  "theorems": [
   "C87_ratio"
  ]
 },
 "comparisonPattern|subtract": {
  "theorems": [
   "C141_signs"
  ]
 },
 "timedeltaUnits|number shown": {
  "theorems": [
   "C142_interval"
  ]
 },
 "distanceUnits|solar radii": {
  "theorems": [
   "C143_distance_text"
  ]
 },
 "mathFcn|path sanitised": {
  "theorems": [
   "C138_function_path"
  ]
 },
 "atEnd|(stricter) final newline": {
  "theorems": [
   "C88_read"
  ]
 },
 "currentVersion|default": {
  "theorems": [
   "C88_start"
  ]
 },
 "currentVersion|v added": {
  "theorems": [
   "C88_start"
  ]
 },
 "bumpMain|usage code 2": {
  "theorems": [
   "C88_refused"
  ]
 },
 "normalizeVersion|all leading v removed": {
  "theorems": [
   "C89_normalized"
  ]
 },
 "waitMain|exit code": {
  "theorems": [
   "C89_codes"
  ]
 },
 "prMain|reopened without file": {
  "theorems": [
   "C149_no_file"
  ]
 },
 "parsePath|'.' components dropped": {
  "theorems": [
   "C155_explicit"
  ]
 },
 "newPath|add_scale=False": {
  "theorems": [
   "C155_explicit"
  ]
 },
 "setLog|y scale kept": {
  "theorems": [
   "C154_log_history"
  ]
 },
 "setLog|x scale kept": {
  "theorems": [
   "C154_log_history"
  ]
 },
 "checkNorm|empty text": {
  "theorems": [
   "C156_accepts"
  ]
 },
 "checkNorm|scatter has no set_axnorm": {
  "theorems": [
   "C156_accepts"
  ]
 },
 "step|add_scale": {
  "theorems": [
   "C155_explicit"
  ]
 },
 "mkPlasma|species stored unsplit (rerun)": {
  "theorems": [],
  "note": "equivalent in practice: a construction with the comma form fails before the stored species matters (C03_comma_form_fails)"
 },
 "bin|mask (same outcome?) (rerun)": {
  "theorems": [],
  "note": "equivalent mutant: no observable effect"
 },
 "bin|fill value returned (unreachable?) (rerun)": {
  "theorems": [],
  "note": "equivalent mutant: no observable effect"
 },
 "plotContours|auto .valueError→.typeError at line 107: if upper.all (fun x => x ∈ [\"AIC\", \"FMW\", \"MM\", \"OFI\"]) then pure () else throw PyErr.type": {
  "theorems": [
   "C108_contour_kinds"
  ]
 },
 "plotContours|auto ∈→∉ at line 107: if upper.all (fun x => x ∉ [\"AIC\", \"FMW\", \"MM\", \"OFI\"]) then pure () else throw PyErr.valu": {
  "theorems": [
   "C108_contour_kinds"
  ]
 },
 "isUnstable|auto false→true at line 83: if kinds.all (fun k => (st k).isSome) then .ok (fun k => (st k).getD true) else .error .va": {
  "theorems": [],
  "note": "equivalent: every published parameter set decides all four instabilities, the branch is unreachable"
 },
 "fillStep|auto ≠→= at line 74: | none => some ((kinds.filter (· = k)).all (fun o => (st o).getD false))": {
  "theorems": [],
  "note": "equivalent: the branch is unreachable for the published parameters"
 },
 "isUnstable|auto .valueError→.typeError at line 83: if kinds.all (fun k => (st k).isSome) then .ok (fun k => (st k).getD false) else .error .t": {
  "theorems": [],
  "note": "equivalent: every published parameter set decides all four instabilities, the branch is unreachable"
 },
 "downloads|auto 0→1 at line 82: def downloads (today : Nat) (l : Loader) : Nat := if l.ctime < today then 1 else 1": {
  "theorems": [
   "C110_downloads"
  ]
 },
 "trim|auto 1→2 at line 272: else if name = \"sl_70\" then (maxima, minima.drop 2)": {
  "theorems": [
   "C68_trim"
  ]
 },
 "sixYears|auto *→+ at line 64: def sixYears : Int := 6 * 365 + 86400000000000": {
  "theorems": [
   "C65_six_years"
  ]
 },
 "containsOne|auto <→≤ at line 60: decide (0 ≤ idx) && ((sorted.map Prod.snd).take idx).any (fun e => leOpt t e)": {
  "theorems": [],
  "note": "equivalent: with index 0 nothing is taken"
 },
 "npMax|auto 0→1 at line 42: | [] => 1": {
  "theorems": [],
  "note": "equivalent: never called with an empty list"
 },
 "intBody|auto false→true at line 189: | prev, c :: cs => if c.isDigit then intBody true cs else if c = '_' then prev && intBody ": {
  "theorems": [
   "C87_charge_text"
  ]
 },
 "intBody|auto =→≠ at line 189: | prev, c :: cs => if c.isDigit then intBody true cs else if c ≠ '_' then prev && intBody ": {
  "theorems": [
   "C87_charge_text"
  ]
 },
 "createTag|auto true→false at line 183: if dry then (false, tags) else if tag ∈ tags then (false, tags) else (true, tag :: tags)": {
  "theorems": [
   "C88_create_tag"
  ]
 },
 "mkScatter|auto y→x at line 252: let p := { base0 .scatter h with x := .str ['x'], y := .str ['x'], z := if zNone then .non": {
  "theorems": [
   "C154_new_scatter"
  ]
 },
 "base0|auto true→false at line 217: { p with path := newPath h p .auto false }": {
  "theorems": [],
  "note": "equivalent: the path is always overwritten"
 },
 "putAgg|auto ∨→∧ at line 125: | none => if axnorm = some \"c\" ∧ axnorm = some \"r\" then some ⟨some 0, some 1, false⟩ else ": {
  "theorems": [
   "C160_orbit_scale"
  ]
 },
 "putAgg|auto 0→1 at line 125: | none => if axnorm = some \"c\" ∨ axnorm = some \"r\" then some ⟨some 1, some 1, false⟩ else ": {
  "theorems": [
   "C160_orbit_scale"
  ]
 },
 "kindOf|auto .valueError→.typeError at line 137: else .error .typeError": {
  "theorems": [
   "C160_kind"
  ]
 },
 "setIonsSpecies|auto .assertionError→.valueError at line 58: if (ionNames sp).any (hasChar '+') then .error .valueError else .ok (ionNames sp)": {
  "theorems": [
   "C03_ions_refused"
  ]
 },
 "setData|auto .keyError→.valueError at line 87: if (data.sel (fun c => c.m == \"w\" && (c.c == \"par\" || c.c == \"per\"))).isEmpty then .error ": {
  "theorems": [
   "C05_refused"
  ]
 },
 "setData|auto &&→|| at line 89: else if (data.sel (fun c => c.m == \"b\" || c.s == \"\")).isEmpty then .error .keyError": {
  "theorems": [
   "C05_refused"
  ]
 },
 "setData|auto .valueError→.typeError at line 90: else if !([\"x\", \"y\", \"z\"].all (fun k => data.cols.contains ⟨\"b\", k, \"\"⟩)) then .error .typ": {
  "theorems": [
   "C05_refused"
  ]
 },
 "ionCheck|auto .keyError→.valueError at line 99: if !(data.cols.map Col.s).contains s then .error .valueError": {
  "theorems": [
   "C05_ion_refused"
  ]
 },
 "ionCheck|auto .valueError→.typeError at line 101: else .error .typeError": {
  "theorems": [
   "C05_ion_refused"
  ]
 },
 "setAux|auto .assertionError→.valueError at line 388: if !dt then (.error .valueError, st)": {
  "theorems": [
   "C09_errors"
  ]
 },
 "setSc|auto .assertionError→.valueError at line 397: | .notFrame => (.error .valueError, st)": {
  "theorems": [
   "C09_errors"
  ]
 },
 "setAux|auto .valueError→.typeError at line 391: else if cols.any (fun c => st.cols.contains c) then (.error .typeError, st)": {
  "theorems": [
   "C09_errors"
  ]
 },
 "attachAux|auto .valueError→.typeError at line 308: if aux.cols.any (fun c => p.core.data.cols.contains c) then .error .typeError": {
  "theorems": [
   "C91_missing_keys"
  ]
 },
 "loadPlasma|auto .keyError→.valueError at line 332: | none => .error .valueError": {
  "theorems": [
   "C91_missing_keys"
  ]
 },
 "setSc|auto .assertionError→.valueError at line 401: else if !names then (.error .valueError, st)": {
  "theorems": [
   "C09_errors"
  ]
 },
 "loadPlasma|auto .keyError→.valueError at line 316: | none => .error .valueError": {
  "theorems": [
   "C91_missing_keys"
  ]
 },
 "twoSpecies|auto .keyError→.valueError at line 266: | [x], [y] => if ions.contains x && ions.contains y then .ok (x, y) else .error .valueErro": {
  "theorems": [
   "C02_empty_name"
  ]
 },
 "resolve|auto .keyError→.valueError at line 84: if sl.any (fun s => !ions.contains s) then .error .valueError": {
  "theorems": [
   "C02_empty_name"
  ]
 },
 "exp10|auto 0→1 at line 90: | .ninf => .fin 1": {
  "theorems": [],
  "note": "not reachable: the shipped tables hold no infinite abundance"
 },
 "exp10|auto .pinf→.ninf at line 89: | .pinf => .ninf": {
  "theorems": [],
  "note": "not reachable: the shipped tables hold no infinite abundance"
 },
 "ARow.matches|auto false→true at line 73: | .other => true": {
  "theorems": [],
  "note": "equivalent: other keys are refused before"
 },
 "hingeP0|auto -→+ at line 187: else (npMax y - npMin y) / (npMax x + npMin x)": {
  "theorems": [
   "C102_few_below"
  ]
 },
 "hingeAtPointP0|auto 1→2 at line 208: else if Fl.lt (npMin x) xh then yh / (xh - npMin x) else .fin 2": {
  "theorems": [
   "C102_few_below"
  ]
 },
 "hingeP0|auto y→x at line 187: else (npMax x - npMin y) / (npMax x - npMin x)": {
  "theorems": [
   "C102_few_below"
  ]
 },
 "npMin|auto .nan→.fin 0 at line 74: | [] => .fin 0": {
  "theorems": [],
  "note": "equivalent: an empty array is refused before"
 },
 "npMax|auto .nan→.fin 0 at line 69: | [] => .fin 0": {
  "theorems": [],
  "note": "equivalent: an empty array is refused before"
 },
 "singleLabel|default label": {
  "theorems": [
   "C168_label_default"
  ]
 },
 "mkUnits|distance": {
  "theorems": [
   "C164_defaults"
  ]
 },
 "resolveFixed|auto ∧→∨ at line 112: if r ∈ mods then some r else mods.find? (fun m => decide (r <+: m ∨ r ≠ m))": {
  "theorems": [
   "C173_subpackage"
  ]
 },
 "resolveFixed|auto ≠→= at line 112: if r ∈ mods then some r else mods.find? (fun m => decide (r <+: m ∧ r = m))": {
  "theorems": [
   "C173_subpackage"
  ]
 },
 "gaussTimesPlusP0|auto .valueError→.typeError at line 39: if ys = [] then .error .typeError else .ok [g, y1, wMean xs ys, Fl.sqrt (wVar xs ys), npMa": {
  "theorems": [
   "C179_none_beyond"
  ]
 },
 "contourLevels|auto .1→.2 at line 138: if s = \"t\" then .ok (some [0.01, 0.2, 0.3, 0.7, 0.99])": {
  "theorems": [
   "C184_default_levels"
  ]
 },
 "window|auto -→+ at line 181: | none => (y.map (fun a => a + .fin 0), y.map (fun a => a + .fin 0))": {
  "theorems": [],
  "note": "equivalent: adding and subtracting a width of zero are the same"
 },
 "defaultNorm|auto true→false at line 114: else if axnorm = some \"d\" ∨ axnorm = some \"cd\" ∨ axnorm = some \"rd\" then some ⟨none, none,": {
  "theorems": [
   "C163_defaults"
  ]
 },
 "unionIdx|auto ≤→< at line 172: def unionIdx (a b : List Int) : List Int := if a = b then a else ((a ++ b).dedup).insertio": {
  "theorems": [],
  "note": "equivalent: the labels are distinct after dedup"
 },
 "normBoth|auto /→* at line 78: .ok (fun l i j => a l i j * Fl.sumSkip (Hist.row (a .inbound) nx j ++ Hist.row (a .outboun": {
  "theorems": [
   "C159_conditional"
  ]
 },
 "round100|auto <→≤ at line 173: 100 * (if f ≤ 1 / 2 then q else if 1 / 2 < f then q + 1 else if q % 2 = 0 then q else q + ": {
  "theorems": [
   "C187_ties"
  ]
 },
 "round100|auto 0→1 at line 173: 100 * (if f < 1 / 2 then q else if 1 / 2 < f then q + 1 else if q % 2 = 1 then q else q + ": {
  "theorems": [
   "C187_ties"
  ]
 },
 "Sidc.interpolateData|auto .keyError→.valueError at line 110: | none => (.error .valueError, s)": {
  "theorems": [
   "C186_no_column"
  ]
 },
 "inClim|auto ≤→< at line 56: (∀ c ∈ clim.1, c ≤ (n : ℝ)) ∧ (∀ c ∈ clim.2, (n : ℝ) < c)": {
  "theorems": [
   "C190_cell"
  ]
 },
 "inClim|auto .1→.2 at line 56: (∀ c ∈ clim.2, c ≤ (n : ℝ)) ∧ (∀ c ∈ clim.2, (n : ℝ) ≤ c)": {
  "theorems": [
   "C190_cell"
  ]
 },
 "feasible|auto 1→2 at line 44: | _, _ => .fin 2": {
  "theorems": [
   "C192_start_value"
  ]
 },
 "scipyChecks|auto .valueError→.typeError at line 75: else if q.method = \"lm\" ∧ ((∃ b ∈ lb, b ≠ .ninf) ∨ (∃ b ∈ ub, b ≠ .pinf)) then .error .typ": {
  "theorems": [
   "C192_lm_bounds"
  ]
 },
 "feasible|auto 1→2 at line 42: | .fin a, _ => .fin (a + 2)": {
  "theorems": [
   "C192_start_value"
  ]
 },
 "run|auto .valueError→.typeError at line 97: if q.args then throw .typeError": {
  "theorems": [
   "C192_args"
  ]
 },
 "mkSSN|auto .keyError→.valueError at line 78: | none => .error .valueError": {
  "theorems": [],
  "note": "equivalent: the branch is not reachable, every lookup succeeds for the known keys"
 },
 "setAux'|auto .assertionError→.valueError at line 140: if idx ≠ st.data.idx then (.error .valueError, st)": {
  "theorems": [
   "C203_refused"
  ]
 },
 "setData'|auto .valueError→.typeError at line 114: if new.idx = [] ∨ new.fr = [] then (.error .typeError, st)": {
  "theorems": [
   "C203_refused"
  ]
 },
 "construct|auto .valueError→.typeError at line 184: if new.idx = [] then .error .typeError": {
  "theorems": [
   "C203_refused"
  ]
 },
 "hasAttr|auto true→false at line 78: | some (.ok _) => some (.ok false)": {
  "theorems": [
   "C202_hasattr"
  ]
 },
 "hasAttr|auto false→true at line 79: | some (.error .attributeError) => some (.ok true)": {
  "theorems": [
   "C202_hasattr"
  ]
 },
 "hasAttr|auto .attributeError→.keyError at line 79: | some (.error .keyError) => some (.ok false)": {
  "theorems": [
   "C202_hasattr"
  ]
 },
 "setAux'|auto .valueError→.typeError at line 141: else if cols.any (fun c => st.data.fr.cols.contains c) then (.error .typeError, st)": {
  "theorems": [
   "C203_refused"
  ]
 },
 "setSc'|auto .assertionError→.valueError at line 133: | some idx => if idx = st.data.idx then (.ok (), { st with sc := some idx }) else (.error ": {
  "theorems": [
   "C203_refused"
  ]
 },
 "isId|auto ||→&& at line 54: def isId (c : Char) : Bool := c.isAlpha || c.isDigit && c == '_'": {
  "theorems": [],
  "note": "equivalent on the modelled inputs: the identifiers in the shipped templates contain no digit or underscore"
 },
 "get|C202 property errors fall back": {
  "theorems": [
   "C202_unset"
  ],
  "note": "added the theorem on properties raising AttributeError"
 },
 "get|C202 property errors fall back (again)": {
  "theorems": [
   "C202_unset"
  ],
  "note": "added the theorem on properties raising AttributeError"
 },
 "hasAttr|C202 hasattr": {
  "theorems": [
   "C202_hasattr"
  ],
  "note": "tightened"
 },
 "runG|C209 None start": {
  "theorems": [
   "C209_default_start"
  ],
  "note": "added the theorem on the start without a guess"
 },
 "ssnLines|C207 table": {
  "theorems": [
   "C207_dates"
  ],
  "note": "added: the dates of all 50 extrema"
 },
 "converted|C212 conversions": {
  "theorems": [
   "C212_paper"
  ],
  "note": "added: the annotation simplified for a paper, whatever else is asked for"
 },
 "converted|C212 simplification strips the uncertainty": {
  "theorems": [
   "C212_paper"
  ],
  "note": "added: the annotation simplified for a paper"
 },
 "renamed|C212 renamed parameters": {
  "theorems": [
   "C212_text",
   "C212_relative_error"
  ],
  "note": "C212 theorems now quantify over the translation of names"
 },
 "withSettings|C215 set_function": {
  "theorems": [
   "C215_setters"
  ],
  "note": "added: what an accepted setter stores"
 },
 "initials|C236: initials descending": {
  "theorems": [
   "C236_listing"
  ],
  "note": "the rows now come in ascending order of the key of their initial"
 },
 "dropDir|C243: separators after a repeated directory are kept": {
  "theorems": [
   "Plans.C243_repeat"
  ],
  "note": "added: a name that repeats the directory loses it together with the separators behind it"
 },
 "ownerRepo|C244: longer paths accepted": {
  "theorems": [
   "Plans.C244_remote_parts"
  ],
  "note": "added: the remote must have exactly an owner and a repository behind the host"
 },
 "lineCount|C278: lines of a docstring": {
  "theorems": [
   "SW.DocTree.validate_words"
  ],
  "note": "survived; validate_words states the number of lines of a docstring and now fails under the edit"
 },
 "physicsWords|C278: keywords": {
  "theorems": [
   "SW.DocTree.validate_words"
  ],
  "note": "survived; validate_words lists the keywords and now fails under the edit"
 },
 "poptAndTrend|C270: error after partial": {
  "theorems": [
   "SW.Draw.C270_stops"
  ],
  "note": "survived; C270_stops states what is left on the figure after an exception and now fails under the edit"
 },
 "run|C288: list of circular imports in the report": {
  "theorems": [
   "SW.DynImp.C288_report"
  ],
  "note": "survived; C288_report states every entry of the report and now fails under the edit"
 },
 "run|C288: results in the report": {
  "theorems": [
   "SW.DynImp.C288_report"
  ],
  "note": "survived; C288_report states every entry of the report and now fails under the edit"
 },
 "pairs|none: the sixth has no successor (equivalent)": {
  "theorems": [],
  "note": "equivalent: the sixth key module has no later one among the first six"
 },
 "report|auto 0→1 at line 125: | some f => some (text (some (((s.total.getD 0 : ℚ) - f) / (s.total.getD 1 : ℚ) * 100)))": {
  "theorems": [],
  "note": "equivalent: in this branch the total is present"
 },
 "report|auto 0→1 at line 121: let text (r : Option ℚ) : Text := ⟨s.files.getD 1, s.total.getD 0, s.failed.getD 0, s.exam": {
  "theorems": [
   "SW.Conf.C291_missing"
  ],
  "note": "survived; C291_missing states what missing entries count as and now fails under the edit"
 }
}