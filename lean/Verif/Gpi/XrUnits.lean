/-
C243: units of the arguments of the labelled functions.
-/
import Verif.Gpi.Xr

namespace Skyborn.Gpi.Xr

open WindXr
open Trop.Xr (lower contains)

/-! ### Specification -/

/-- The units known. -/
inductive Spec.Unit
  | kelvin | celsius | fahrenheit | pascal | hectopascal | kilopascal | atmosphere | kilogram | gram | milligram | percent | ppmv

/-- A value in SI units: kelvin, pascal, kilogram per kilogram (a part per million by volume of vapour is 0.622 millionths by mass). -/
noncomputable def Spec.si : Spec.Unit → ℝ → ℝ
  | .kelvin, x => x
  | .celsius, x => x + 273.15
  | .fahrenheit, x => (x + 459.67) * (5 / 9)
  | .pascal, x => x
  | .hectopascal, x => 100 * x
  | .kilopascal, x => 1000 * x
  | .atmosphere, x => 101325 * x
  | .kilogram, x => x
  | .gram, x => x / 10 ^ 3
  | .milligram, x => x / 10 ^ 6
  | .percent, x => x / 100
  | .ppmv, x => 0.622 * x / 10 ^ 6

/-- How they are written, in small letters. -/
def Spec.spellings : Spec.Unit → List String
  | .kelvin => ["k", "kelvin", "degrees_kelvin", "degrees k", "degk", "deg k", "degree_k", "degree_kelvin"]
  | .celsius => ["c", "°c", "℃", "ºc", "oc", "celsius", "celcius", "degc", "deg c", "deg_c", "degrees c", "degrees_c", "degree_c", "degree_celsius", "degrees_celsius",
      "degree celsius", "degrees celsius"]
  | .fahrenheit => ["f", "°f", "℉", "ºf", "of", "fahrenheit", "degf", "deg f", "deg_f", "degrees f", "degrees_f", "degree_f", "degree_fahrenheit", "degrees_fahrenheit"]
  | .pascal => ["pa", "pascal", "pascals", "n/m^2", "n/m2", "n m^-2", "n m-2", "n.m-2", "n·m^-2", "newton/m^2"]
  | .hectopascal => ["hpa", "mb", "mbar", "mbars", "millibar", "millibars", "hectopascal", "hectopascals", "hecto-pascal", "hecto pascal", "hpascal"]
  | .kilopascal => ["kpa", "kilopascal", "kilopascals", "kilo-pascal", "kilo pascal", "kpascal"]
  | .atmosphere => ["atm", "atmosphere", "atmospheres", "standard atmosphere"]
  | .kilogram => ["kg/kg", "kg kg-1", "kg kg^-1", "kg.kg-1", "kg.kg^-1", "kg·kg^-1", "kg*kg^-1", "kg.kg^(-1)", "kg kg^(-1)", "kilograms/kilogram", "dimensionless", "1", "none",
      "unitless", "-", "", "fraction", "ratio", "nondimensional", "no unit"]
  | .gram => ["g/kg", "g kg-1", "g kg^-1", "g.kg-1", "g.kg^-1", "g·kg^-1", "g*kg^-1", "g.kg^(-1)", "g kg^(-1)", "g/kilogram", "gram/kg", "grams/kg", "grams per kilogram"]
  | .milligram => ["mg/kg", "mg kg-1", "mg kg^-1", "mg.kg-1", "milligrams/kg"]
  | .percent => ["%", "％", "percent", "percentage", "pct"]
  | .ppmv => ["ppmv", "ppm", "ppm(v)", "parts per million"]

/-- `s` means `u`: one of the spellings, in small or capital letters, with blanks around it, `**` for `^`. -/
def Spec.Means (s : String) (u : Spec.Unit) : Prop := ∃ v ∈ Spec.spellings u, v.toList = (tidy s).map Char.toLower

/-- The arguments. -/
inductive Spec.Arg
  | sst | psl | levels | temperature | mixing

/-- The units an argument may be in. -/
def Spec.Arg.units : Spec.Arg → List Spec.Unit
  | .sst | .temperature => [.kelvin, .celsius, .fahrenheit]
  | .psl | .levels => [.pascal, .hectopascal, .kilopascal, .atmosphere]
  | .mixing => [.kilogram, .gram, .milligram, .percent, .ppmv]

/-- The unit the computation is in: hectopascal for the levels, else the SI unit. -/
noncomputable def Spec.Arg.scale : Spec.Arg → ℝ
  | .levels => 100
  | _ => 1

/-- `f` takes the values of the argument into the unit of the computation: the attribute `units` says which they are in; without it they are in that unit. -/
def Spec.Reading (g : Spec.Arg) (a : PArr) (f : ℝ → ℝ) : Prop :=
  (a.attrs.lookup "units" = none ∧ f = fun x => x) ∨
    ∃ s u, a.attrs.lookup "units" = some s ∧ u ∈ g.units ∧ Spec.Means s u ∧ f = fun x => Spec.si u x / g.scale

/-- The array with its values taken through `f`, without attributes. -/
def Spec.through (f : ℝ → ℝ) (a : PArr) : PArr := ⟨a.dims, ⟨a.data.shape, fun i => (a.data.get i).map f⟩, a.coords, a.name, []⟩

/-! ### Proofs -/

/-- The call for an argument. -/
noncomputable def check (g : Spec.Arg) (a : PArr) : Except Err PArr :=
  match g with
  | .sst => checkUnits a "SST" ["K"]
  | .psl => checkUnits a "PSL" ["Pa"]
  | .levels => checkUnits a "pressure_levels" ["mb", "hPa"]
  | .temperature => checkUnits a "temperature" ["K"]
  | .mixing => checkUnits a "mixing_ratio" ["kg/kg"]

/-- A table by small letters. -/
def low (w : List Char) (table : List String) : Bool := table.any fun v => decide (lower v = w)

theorem listed_low (u : List Char) (table : List String) : listed u table = low (u.map Char.toLower) table := by
  unfold listed low
  rw [Bool.or_eq_right_iff_imp]
  intro h
  obtain ⟨v, hv, e⟩ := List.any_eq_true.mp h
  refine List.any_eq_true.mpr ⟨v, hv, ?_⟩
  rw [decide_eq_true_eq] at e ⊢
  rw [← e]; rfl

theorem map_id_data (a : PArr) : ({ a with attrs := [] } : PArr) = Spec.through (fun x => x) a := by
  unfold Spec.through
  have : a.data = ⟨a.data.shape, fun i => (a.data.get i).map fun x => x⟩ := by
    simp
  rw [← this]

theorem through_map (f : ℝ → ℝ) (a : PArr) : ({ mapVals f a with attrs := [] } : PArr) = Spec.through f a := rfl

theorem vars_ok : isVar "SST" temperatureVars = true ∧ isVar "temperature" temperatureVars = true ∧ isVar "PSL" temperatureVars = false ∧
    isVar "pressure_levels" temperatureVars = false ∧ isVar "mixing_ratio" temperatureVars = false ∧ isVar "SST" pressureVars = false ∧
    isVar "temperature" pressureVars = false ∧ isVar "PSL" pressureVars = true ∧ isVar "pressure_levels" pressureVars = true ∧
    isVar "mixing_ratio" pressureVars = false ∧ isVar "SST" humidityVars = false ∧ isVar "temperature" humidityVars = false ∧ isVar "PSL" humidityVars = false ∧
    isVar "pressure_levels" humidityVars = false ∧ isVar "mixing_ratio" humidityVars = true := by decide +kernel

/-- The rule for an argument, by small letters. -/
noncomputable def ruleOf (g : Spec.Arg) (w : List Char) : Rule :=
  match g with
  | .sst | .temperature =>
    if low w celsiusUnits then some fun x => x + 273.15
    else if low w fahrenheitUnits then some fun x => (x - 32) * 5 / 9 + 273.15
    else if low w kelvinUnits then some fun x => x
    else none
  | .psl =>
    if low w pascalUnits then some fun x => x
    else if low w hpaUnits then some fun x => x * 100
    else if low w kpaUnits then some fun x => x * 1000
    else if low w atmUnits then some fun x => x * 101325
    else none
  | .levels =>
    if low w pascalUnits then some fun x => x / 100
    else if low w hpaUnits then some fun x => x
    else if low w kpaUnits then some fun x => x * 10
    else if low w atmUnits then some fun x => x * 1013.25
    else none
  | .mixing =>
    if low w gramUnits then some fun x => x / 1000
    else if low w milliUnits then some fun x => x / 1000000
    else if low w kiloUnits then some fun x => x
    else if low w percentUnits then some fun x => x / 100
    else if low w ppmvUnits then some fun x => x * 0.622e-6
    else none

theorem check_rule (g : Spec.Arg) {a : PArr} {s : String} (h : a.attrs.lookup "units" = some s) :
    check g a = match ruleOf g ((tidy s).map Char.toLower) with
      | some f => .ok (Spec.through f a)
      | none => .error .value := by
  obtain ⟨v1, v2, v3, v4, v5, v6, v7, v8, v9, v10, v11, v12, v13, v14, v15⟩ := vars_ok
  have k1 : low ("K".toList.map Char.toLower) celsiusUnits = false := by decide +kernel
  have k2 : low ("K".toList.map Char.toLower) fahrenheitUnits = false := by decide +kernel
  have k3 : low ("K".toList.map Char.toLower) kelvinUnits = true := by decide +kernel
  have k4 : low ("Pa".toList.map Char.toLower) pascalUnits = true := by decide +kernel
  have k5 : low ("hPa".toList.map Char.toLower) pascalUnits = false := by decide +kernel
  have k6 : low ("mb".toList.map Char.toLower) pascalUnits = false := by decide +kernel
  have k7 : low ("hPa".toList.map Char.toLower) hpaUnits = true := by decide +kernel
  have k8 : low ("mb".toList.map Char.toLower) hpaUnits = true := by decide +kernel
  have k9 : low ("kg/kg".toList.map Char.toLower) gramUnits = false := by decide +kernel
  have k10 : low ("kg/kg".toList.map Char.toLower) milliUnits = false := by decide +kernel
  have k11 : low ("kg/kg".toList.map Char.toLower) kiloUnits = true := by decide +kernel
  generalize hu : tidy s = u
  cases g with
  | sst =>
    simp only [check, checkUnits, h, hu]
    by_cases e : "K".toList = u
    · subst e; simp only [List.any_cons, decide_true, Bool.true_or, if_true, ruleOf, k1, k2, k3, Bool.false_eq_true, if_false]
      rw [map_id_data]
    · simp only [List.any_cons, List.any_nil, e, decide_false, Bool.or_false, Bool.false_eq_true, if_false, List.headD_cons, v1, v6, v11, true_and, false_and, if_true,
        temperatureRule, listed_low, ruleOf]
      split_ifs <;> rfl
  | temperature =>
    simp only [check, checkUnits, h, hu]
    by_cases e : "K".toList = u
    · subst e; simp only [List.any_cons, decide_true, Bool.true_or, if_true, ruleOf, k1, k2, k3, Bool.false_eq_true, if_false]
      rw [map_id_data]
    · simp only [List.any_cons, List.any_nil, e, decide_false, Bool.or_false, Bool.false_eq_true, if_false, List.headD_cons, v2, v7, v12, true_and, false_and, if_true,
        temperatureRule, listed_low, ruleOf]
      split_ifs <;> rfl
  | psl =>
    simp only [check, checkUnits, h, hu]
    by_cases e : "Pa".toList = u
    · subst e; simp only [List.any_cons, decide_true, Bool.true_or, if_true, ruleOf, k4]
      rw [map_id_data]
    · simp only [List.any_cons, List.any_nil, e, decide_false, Bool.or_false, Bool.false_eq_true, if_false, List.headD_cons, v3, v8, v13, true_and, false_and, true_or, if_true,
        pressureRule, listed_low, ruleOf, show ¬ ("Pa" = "hPa" ∨ "Pa" = "mb") by decide, show u ≠ "Pa".toList from fun q => e q.symm, ne_eq, not_false_eq_true]
      split_ifs <;> rfl
  | levels =>
    simp only [check, checkUnits, h, hu]
    by_cases e : "mb".toList = u
    · subst e; simp only [List.any_cons, decide_true, Bool.true_or, if_true, ruleOf, k6, k8, Bool.false_eq_true, if_false]
      rw [map_id_data]
    by_cases e' : "hPa".toList = u
    · subst e'; simp only [List.any_cons, decide_true, Bool.true_or, Bool.or_true, if_true, ruleOf, k5, k7, Bool.false_eq_true, if_false]
      rw [map_id_data]
    · simp only [List.any_cons, List.any_nil, e, e', decide_false, Bool.or_false, Bool.false_eq_true, if_false, List.headD_cons, v4, v9, v14, true_and, false_and, or_true, if_true,
        pressureRule, listed_low, ruleOf, show ¬ ("mb" = "Pa") by decide, show u ≠ "hPa".toList from fun q => e' q.symm, show u ≠ "mb".toList from fun q => e q.symm, ne_eq,
        not_false_eq_true]
      split_ifs <;> rfl
  | mixing =>
    simp only [check, checkUnits, h, hu]
    by_cases e : "kg/kg".toList = u
    · subst e; simp only [List.any_cons, decide_true, Bool.true_or, if_true, ruleOf, k9, k10, k11, Bool.false_eq_true, if_false]
      rw [map_id_data]
    · simp only [List.any_cons, List.any_nil, e, decide_false, Bool.or_false, Bool.false_eq_true, if_false, List.headD_cons, v5, v10, v15, true_and, false_and, if_true,
        humidityRule, listed_low, ruleOf]
      split_ifs <;> rfl

/-- All spellings against a table. -/
def allLow (u : Spec.Unit) (table : List String) (b : Bool) : Bool := (Spec.spellings u).all fun v => low v.toList table == b

theorem allLow_use {u : Spec.Unit} {table : List String} {b : Bool} (h : allLow u table b = true) {v : String} (hv : v ∈ Spec.spellings u) : low v.toList table = b := by
  have := List.all_eq_true.mp h v hv
  simpa using this

theorem rule_means {g : Spec.Arg} {u : Spec.Unit} (hu : u ∈ g.units) {v : String} (hv : v ∈ Spec.spellings u) :
    ∃ f, ruleOf g v.toList = some f ∧ f = fun x => Spec.si u x / g.scale := by
  cases g with
  | sst | temperature =>
    simp only [Spec.Arg.units, List.mem_cons, List.not_mem_nil, or_false] at hu
    rcases hu with rfl | rfl | rfl
    · refine ⟨fun x => x, ?_, ?_⟩
      · simp only [ruleOf, allLow_use (show allLow .kelvin celsiusUnits false = true by decide +kernel) hv,
          allLow_use (show allLow .kelvin fahrenheitUnits false = true by decide +kernel) hv, allLow_use (show allLow .kelvin kelvinUnits true = true by decide +kernel) hv]
        rfl
      · funext x; simp [Spec.si, Spec.Arg.scale]
    · refine ⟨fun x => x + 273.15, ?_, ?_⟩
      · simp only [ruleOf, allLow_use (show allLow .celsius celsiusUnits true = true by decide +kernel) hv]
        rfl
      · funext x; simp [Spec.si, Spec.Arg.scale]
    · refine ⟨fun x => (x - 32) * 5 / 9 + 273.15, ?_, ?_⟩
      · simp only [ruleOf, allLow_use (show allLow .fahrenheit celsiusUnits false = true by decide +kernel) hv,
          allLow_use (show allLow .fahrenheit fahrenheitUnits true = true by decide +kernel) hv]
        rfl
      · funext x; simp only [Spec.si, Spec.Arg.scale]; ring
  | psl =>
    simp only [Spec.Arg.units, List.mem_cons, List.not_mem_nil, or_false] at hu
    rcases hu with rfl | rfl | rfl | rfl
    · refine ⟨fun x => x, ?_, ?_⟩
      · simp only [ruleOf, allLow_use (show allLow .pascal pascalUnits true = true by decide +kernel) hv]
        rfl
      · funext x; simp [Spec.si, Spec.Arg.scale]
    · refine ⟨fun x => x * 100, ?_, ?_⟩
      · simp only [ruleOf, allLow_use (show allLow .hectopascal pascalUnits false = true by decide +kernel) hv,
          allLow_use (show allLow .hectopascal hpaUnits true = true by decide +kernel) hv]
        rfl
      · funext x; simp only [Spec.si, Spec.Arg.scale]; ring
    · refine ⟨fun x => x * 1000, ?_, ?_⟩
      · simp only [ruleOf, allLow_use (show allLow .kilopascal pascalUnits false = true by decide +kernel) hv,
          allLow_use (show allLow .kilopascal hpaUnits false = true by decide +kernel) hv, allLow_use (show allLow .kilopascal kpaUnits true = true by decide +kernel) hv]
        rfl
      · funext x; simp only [Spec.si, Spec.Arg.scale]; ring
    · refine ⟨fun x => x * 101325, ?_, ?_⟩
      · simp only [ruleOf, allLow_use (show allLow .atmosphere pascalUnits false = true by decide +kernel) hv,
          allLow_use (show allLow .atmosphere hpaUnits false = true by decide +kernel) hv, allLow_use (show allLow .atmosphere kpaUnits false = true by decide +kernel) hv,
          allLow_use (show allLow .atmosphere atmUnits true = true by decide +kernel) hv]
        rfl
      · funext x; simp only [Spec.si, Spec.Arg.scale]; ring
  | levels =>
    simp only [Spec.Arg.units, List.mem_cons, List.not_mem_nil, or_false] at hu
    rcases hu with rfl | rfl | rfl | rfl
    · refine ⟨fun x => x / 100, ?_, ?_⟩
      · simp only [ruleOf, allLow_use (show allLow .pascal pascalUnits true = true by decide +kernel) hv]
        rfl
      · funext x; simp [Spec.si, Spec.Arg.scale]
    · refine ⟨fun x => x, ?_, ?_⟩
      · simp only [ruleOf, allLow_use (show allLow .hectopascal pascalUnits false = true by decide +kernel) hv,
          allLow_use (show allLow .hectopascal hpaUnits true = true by decide +kernel) hv]
        rfl
      · funext x; simp only [Spec.si, Spec.Arg.scale]; ring
    · refine ⟨fun x => x * 10, ?_, ?_⟩
      · simp only [ruleOf, allLow_use (show allLow .kilopascal pascalUnits false = true by decide +kernel) hv,
          allLow_use (show allLow .kilopascal hpaUnits false = true by decide +kernel) hv, allLow_use (show allLow .kilopascal kpaUnits true = true by decide +kernel) hv]
        rfl
      · funext x; simp only [Spec.si, Spec.Arg.scale]; ring
    · refine ⟨fun x => x * 1013.25, ?_, ?_⟩
      · simp only [ruleOf, allLow_use (show allLow .atmosphere pascalUnits false = true by decide +kernel) hv,
          allLow_use (show allLow .atmosphere hpaUnits false = true by decide +kernel) hv, allLow_use (show allLow .atmosphere kpaUnits false = true by decide +kernel) hv,
          allLow_use (show allLow .atmosphere atmUnits true = true by decide +kernel) hv]
        rfl
      · funext x; simp only [Spec.si, Spec.Arg.scale]; ring
  | mixing =>
    simp only [Spec.Arg.units, List.mem_cons, List.not_mem_nil, or_false] at hu
    rcases hu with rfl | rfl | rfl | rfl | rfl
    · refine ⟨fun x => x, ?_, ?_⟩
      · simp only [ruleOf, allLow_use (show allLow .kilogram gramUnits false = true by decide +kernel) hv,
          allLow_use (show allLow .kilogram milliUnits false = true by decide +kernel) hv, allLow_use (show allLow .kilogram kiloUnits true = true by decide +kernel) hv]
        rfl
      · funext x; simp [Spec.si, Spec.Arg.scale]
    · refine ⟨fun x => x / 1000, ?_, ?_⟩
      · simp only [ruleOf, allLow_use (show allLow .gram gramUnits true = true by decide +kernel) hv]
        rfl
      · funext x; simp only [Spec.si, Spec.Arg.scale]; ring
    · refine ⟨fun x => x / 1000000, ?_, ?_⟩
      · simp only [ruleOf, allLow_use (show allLow .milligram gramUnits false = true by decide +kernel) hv,
          allLow_use (show allLow .milligram milliUnits true = true by decide +kernel) hv]
        rfl
      · funext x; simp only [Spec.si, Spec.Arg.scale]; ring
    · refine ⟨fun x => x / 100, ?_, ?_⟩
      · simp only [ruleOf, allLow_use (show allLow .percent gramUnits false = true by decide +kernel) hv,
          allLow_use (show allLow .percent milliUnits false = true by decide +kernel) hv, allLow_use (show allLow .percent kiloUnits false = true by decide +kernel) hv,
          allLow_use (show allLow .percent percentUnits true = true by decide +kernel) hv]
        rfl
      · funext x; simp only [Spec.si, Spec.Arg.scale]; ring
    · refine ⟨fun x => x * 0.622e-6, ?_, ?_⟩
      · simp only [ruleOf, allLow_use (show allLow .ppmv gramUnits false = true by decide +kernel) hv,
          allLow_use (show allLow .ppmv milliUnits false = true by decide +kernel) hv, allLow_use (show allLow .ppmv kiloUnits false = true by decide +kernel) hv,
          allLow_use (show allLow .ppmv percentUnits false = true by decide +kernel) hv, allLow_use (show allLow .ppmv ppmvUnits true = true by decide +kernel) hv]
        rfl
      · funext x; simp only [Spec.si, Spec.Arg.scale]; ring

/-- Every name of a table is a spelling of the unit. -/
def covers (u : Spec.Unit) (table : List String) : Bool := table.all fun v => (Spec.spellings u).any fun w => decide (w.toList = lower v)

theorem covers_use {u : Spec.Unit} {table : List String} (h : covers u table = true) {w : List Char} (hn : ¬ ∃ v ∈ Spec.spellings u, v.toList = w) : low w table = false := by
  unfold low
  rw [List.any_eq_false]
  intro v hv e
  rw [decide_eq_true_eq] at e
  have := List.all_eq_true.mp h v hv
  obtain ⟨x, hx, e'⟩ := List.any_eq_true.mp this
  rw [decide_eq_true_eq, e] at e'
  exact hn ⟨x, hx, e'⟩

theorem rule_none {g : Spec.Arg} {w : List Char} (hn : ∀ u ∈ g.units, ¬ ∃ v ∈ Spec.spellings u, v.toList = w) : ruleOf g w = none := by
  cases g with
  | sst | temperature =>
    simp only [Spec.Arg.units, List.mem_cons, List.not_mem_nil, or_false, forall_eq_or_imp, forall_eq] at hn
    obtain ⟨h1, h2, h3⟩ := hn
    simp only [ruleOf, covers_use (table := celsiusUnits) (by decide +kernel) h2, covers_use (table := fahrenheitUnits) (by decide +kernel) h3,
      covers_use (table := kelvinUnits) (by decide +kernel) h1]
    rfl
  | psl | levels =>
    simp only [Spec.Arg.units, List.mem_cons, List.not_mem_nil, or_false, forall_eq_or_imp, forall_eq] at hn
    obtain ⟨h1, h2, h3, h4⟩ := hn
    simp only [ruleOf, covers_use (table := pascalUnits) (by decide +kernel) h1, covers_use (table := hpaUnits) (by decide +kernel) h2,
      covers_use (table := kpaUnits) (by decide +kernel) h3, covers_use (table := atmUnits) (by decide +kernel) h4]
    rfl
  | mixing =>
    simp only [Spec.Arg.units, List.mem_cons, List.not_mem_nil, or_false, forall_eq_or_imp, forall_eq] at hn
    obtain ⟨h1, h2, h3, h4, h5⟩ := hn
    simp only [ruleOf, covers_use (table := gramUnits) (by decide +kernel) h2, covers_use (table := milliUnits) (by decide +kernel) h3,
      covers_use (table := kiloUnits) (by decide +kernel) h1, covers_use (table := percentUnits) (by decide +kernel) h4, covers_use (table := ppmvUnits) (by decide +kernel) h5]
    rfl

theorem check_reading {g : Spec.Arg} {a : PArr} {f : ℝ → ℝ} (h : Spec.Reading g a f) : check g a = .ok (Spec.through f a) := by
  rcases h with ⟨h, rfl⟩ | ⟨s, u, h, hu, ⟨v, hv, e⟩, rfl⟩
  · rw [← map_id_data]
    cases g <;> simp only [check, checkUnits, h]
  · rw [check_rule g h, ← e]
    obtain ⟨f, h1, h2⟩ := rule_means hu hv
    rw [h1, h2]

theorem check_unknown {g : Spec.Arg} {a : PArr} {s : String} (h : a.attrs.lookup "units" = some s) (hn : ∀ u ∈ g.units, ¬ Spec.Means s u) : check g a = .error .value := by
  rw [check_rule g h, rule_none (w := (tidy s).map Char.toLower) fun u hu he => hn u hu he]

theorem check_error (g : Spec.Arg) (a : PArr) : (∃ f, check g a = .ok (Spec.through f a)) ∨ check g a = .error .value := by
  cases h : a.attrs.lookup "units" with
  | none => exact Or.inl ⟨_, check_reading (Or.inl ⟨h, rfl⟩)⟩
  | some s =>
    rw [check_rule g h]
    cases ruleOf g ((tidy s).map Char.toLower) with
    | none => exact Or.inr rfl
    | some f => exact Or.inl ⟨f, rfl⟩

theorem checked_eq (sst psl p t r : PArr) : checked sst psl p t r = (do
    let sst ← check .sst sst
    let psl ← check .psl psl
    let p ← check .levels p
    let t ← check .temperature t
    let r ← check .mixing r
    return (sst, psl, p, t, r)) := rfl

theorem checked_ok {sst psl p t r : PArr} {f1 f2 f3 f4 f5 : ℝ → ℝ} (h1 : Spec.Reading .sst sst f1) (h2 : Spec.Reading .psl psl f2) (h3 : Spec.Reading .levels p f3)
    (h4 : Spec.Reading .temperature t f4) (h5 : Spec.Reading .mixing r f5) :
    checked sst psl p t r = .ok (Spec.through f1 sst, Spec.through f2 psl, Spec.through f3 p, Spec.through f4 t, Spec.through f5 r) := by
  rw [checked_eq]
  simp only [bind, Except.bind, check_reading h1, check_reading h2, check_reading h3, check_reading h4, check_reading h5]
  rfl

theorem through_reading (g : Spec.Arg) (f : ℝ → ℝ) (a : PArr) : Spec.Reading g (Spec.through f a) fun x => x := Or.inl ⟨rfl, rfl⟩

theorem through_through (f : ℝ → ℝ) (a : PArr) : Spec.through (fun x => x) (Spec.through f a) = Spec.through f a := by
  unfold Spec.through
  simp [Function.comp_def]

/-- C243: in whatever known units the arguments are given, the functions do what they do for the values in the units of the computation - kelvin, pascal for the
sea-level pressure, hectopascal for the levels, kilogram per kilogram - which are assumed where there is no attribute `units`. -/
theorem C243_units {sst psl p t r : PArr} {f1 f2 f3 f4 f5 : ℝ → ℝ} (h1 : Spec.Reading .sst sst f1) (h2 : Spec.Reading .psl psl f2) (h3 : Spec.Reading .levels p f3)
    (h4 : Spec.Reading .temperature t f4) (h5 : Spec.Reading .mixing r f5) (order : List (List ℕ)) :
    potentialIntensityX sst psl p t r order =
      potentialIntensityX (Spec.through f1 sst) (Spec.through f2 psl) (Spec.through f3 p) (Spec.through f4 t) (Spec.through f5 r) order ∧
    ∀ ckcd source, piLogDecompositionX sst psl p t r ckcd source order =
      piLogDecompositionX (Spec.through f1 sst) (Spec.through f2 psl) (Spec.through f3 p) (Spec.through f4 t) (Spec.through f5 r) ckcd source order := by
  have e1 := checked_ok h1 h2 h3 h4 h5
  have e2 := checked_ok (through_reading .sst f1 sst) (through_reading .psl f2 psl) (through_reading .levels f3 p) (through_reading .temperature f4 t)
    (through_reading .mixing f5 r)
  simp only [through_through] at e2
  refine ⟨?_, fun ckcd source => ?_⟩
  · unfold potentialIntensityX
    rw [e1, e2]
  · unfold piLogDecompositionX
    rw [e1, e2]

/-- An argument in units that mean nothing known for it raises ValueError. -/
theorem C243_refused {sst psl p t r : PArr} (h : ∃ g a, (g, a) ∈ [(Spec.Arg.sst, sst), (.psl, psl), (.levels, p), (.temperature, t), (.mixing, r)] ∧
      ∃ s, a.attrs.lookup "units" = some s ∧ ∀ u ∈ g.units, ¬ Spec.Means s u) (order : List (List ℕ)) :
    potentialIntensityX sst psl p t r order = .error .value ∧ ∀ ckcd source, piLogDecompositionX sst psl p t r ckcd source order = .error .value := by
  have e : checked sst psl p t r = .error .value := by
    obtain ⟨g, a, hm, s, h1, h2⟩ := h
    have hc := check_unknown h1 h2
    rw [checked_eq]
    simp only [List.mem_cons, Prod.mk.injEq, List.not_mem_nil, or_false] at hm
    rcases check_error .sst sst with ⟨f1, k1⟩ | k1
    swap
    · simp only [bind, Except.bind, k1]
    rcases check_error .psl psl with ⟨f2, k2⟩ | k2
    swap
    · simp only [bind, Except.bind, k1, k2]
    rcases check_error .levels p with ⟨f3, k3⟩ | k3
    swap
    · simp only [bind, Except.bind, k1, k2, k3]
    rcases check_error .temperature t with ⟨f4, k4⟩ | k4
    swap
    · simp only [bind, Except.bind, k1, k2, k3, k4]
    rcases check_error .mixing r with ⟨f5, k5⟩ | k5
    swap
    · simp only [bind, Except.bind, k1, k2, k3, k4, k5]
    exfalso
    rcases hm with ⟨rfl, rfl⟩ | ⟨rfl, rfl⟩ | ⟨rfl, rfl⟩ | ⟨rfl, rfl⟩ | ⟨rfl, rfl⟩
    · rw [k1] at hc; cases hc
    · rw [k2] at hc; cases hc
    · rw [k3] at hc; cases hc
    · rw [k4] at hc; cases hc
    · rw [k5] at hc; cases hc
  refine ⟨?_, fun ckcd source => ?_⟩
  · unfold potentialIntensityX
    rw [e]; rfl
  · unfold piLogDecompositionX
    rw [e]; rfl

/-- Blanks, capitals and `**`. -/
example : Spec.Means " kg kg**-1 " .kilogram ∧ Spec.Means "degrees_Celsius" .celsius ∧ Spec.Means "HPA" .hectopascal ∧ (∀ u ∈ Spec.Arg.temperature.units, ¬ Spec.Means "hPa" u) := by
  refine ⟨⟨"kg kg^-1", by decide +kernel, by decide +kernel⟩, ⟨"degrees_celsius", by decide +kernel, by decide +kernel⟩, ⟨"hpa", by decide +kernel, by decide +kernel⟩, ?_⟩
  have k : ∀ u ∈ Spec.Arg.temperature.units, (Spec.spellings u).all fun v => decide (v.toList ≠ (tidy "hPa").map Char.toLower) := by
    intro u hu
    simp only [Spec.Arg.units, List.mem_cons, List.not_mem_nil, or_false] at hu
    rcases hu with rfl | rfl | rfl <;> decide +kernel
  rintro u hu ⟨v, hv, e⟩
  have := List.all_eq_true.mp (k u hu) v hv
  rw [decide_eq_true_eq] at this
  exact this e

/-- The hypotheses of C243 met: temperatures in degrees Celsius, pressure in hectopascal. -/
example : ∃ f1 f2, Spec.Reading .temperature ⟨["level"], ⟨[2], fun _ => some 20⟩, [], none, [("units", "degC")]⟩ f1 ∧ f1 20 = 293.15 ∧
    Spec.Reading .psl ⟨[], ⟨[], fun _ => some 1000⟩, [], none, [("units", "hPa")]⟩ f2 ∧ f2 1000 = 100000 := by
  refine ⟨_, _, Or.inr ⟨"degC", .celsius, rfl, by simp [Spec.Arg.units], ⟨"degc", by decide +kernel, by decide +kernel⟩, rfl⟩, ?_,
    Or.inr ⟨"hPa", .hectopascal, rfl, by simp [Spec.Arg.units], ⟨"hpa", by decide +kernel, by decide +kernel⟩, rfl⟩, ?_⟩ <;>
  norm_num [Spec.si, Spec.Arg.scale]

end Skyborn.Gpi.Xr
