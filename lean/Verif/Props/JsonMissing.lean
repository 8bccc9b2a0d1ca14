import Verif.Props.TrainedJson

/-! C77: what `json.Unmarshal` makes of members that are not there. -/

namespace Verif
open scoped Demo
variable {F : Type}

/-- A text in lower case (`encoding/json` ignores the letter case of member names; ASCII only here). -/
def lowerCase (s : GoStr) : GoStr := s.map fun b => if 65 ≤ b ∧ b ≤ 90 then b + 32 else b

/-- None of these names is a member of the object, whatever the letter case. -/
def Json.Lacks (l : List (GoStr × Json)) (names : List GoStr) : Prop :=
  ∀ e ∈ l, (∀ b ∈ e.1, b < 128) ∧ lowerCase e.1 ∉ names.map lowerCase

theorem Json.Lacks.field {l : List (GoStr × Json)} {names : List GoStr} (hl : Json.Lacks l names) {n : GoStr} (hn : n ∈ names) :
    (Json.obj l).field n = .null := by
  cases hg : AMap.get l n with
  | none => simp [Json.field, hg]
  | some v => exact absurd (List.mem_map_of_mem hn) (hl _ (AMap.mem_of_get hg)).2

/-- **C77**. Members that a text does not have are left as they are in a new structure: no columns, no categories, the first
policy for missing and unknown categories, the used columns are dropped, no scaler. (So a text without the options restores a
model that drops the categorical columns, whatever the original did.) -/
theorem C77_missing_members [GoFloat F] (j : JsonFloats F) {s : GoStr} {l : List (GoStr × Json)} (hp : Json.parse s = some (.obj l))
    (hl : Json.Lacks l [b!"Shift", b!"Scale", b!"Fallback", b!"CategoricalColumns", b!"NewColumns", b!"Categories", b!"Options",
      b!"StringToInt", b!"IntToBool", b!"Imputer", b!"Scaler", b!"TargetScaler", b!"Weights", b!"Features",
      b!"MissingPolicy", b!"UnknownPolicy", b!"KeepUsedColumns"]) :
    (∃ sc, unmarshal (Scaler.dec j) s = some sc ∧ sc.shift = [] ∧ sc.scale = []) ∧
    (∃ im, unmarshal (FloatImputer.dec j) s = some im ∧ im.fallback = []) ∧
    unmarshal OneHotEncoder.dec s = some ⟨[], [], [], [], ⟨.separateIfSeen, .separateIfSeen, false⟩⟩ ∧
    unmarshal OneHotOptions.dec s = some ⟨.separateIfSeen, .separateIfSeen, false⟩ ∧
    (∃ e, unmarshal HashEncoder.dec s = some e ∧ e.categoricalColumns = []) ∧
    unmarshal (AutoPreprocessor.dec j) s = some ⟨none, none, none, none, ⟨false, false, []⟩⟩ ∧
    unmarshal (LinearRegressor.dec j) s = some ⟨none, [], []⟩ := by
  have f : ∀ n, n ∈ _ → (Json.obj l).field n = .null := fun n hn => hl.field hn
  simp only [unmarshal, hp, Option.bind_some]
  refine ⟨?_, ?_, ?_, ?_, ?_, ?_, ?_⟩
  · unfold Scaler.dec
    rw [f _ (by decide), f _ (by decide)]
    exact ⟨_, rfl, rfl, rfl⟩
  · unfold FloatImputer.dec
    rw [f _ (by decide)]
    exact ⟨_, rfl, rfl⟩
  · unfold OneHotEncoder.dec
    rw [f _ (by decide), f _ (by decide), f _ (by decide), f _ (by decide), f _ (by decide)]
    rfl
  · unfold OneHotOptions.dec
    rw [f _ (by decide), f _ (by decide), f _ (by decide)]
    rfl
  · unfold HashEncoder.dec
    rw [f _ (by decide)]
    exact ⟨_, rfl, rfl⟩
  · unfold AutoPreprocessor.dec
    rw [f _ (by decide), f _ (by decide), f _ (by decide), f _ (by decide)]
    rfl
  · unfold LinearRegressor.dec
    rw [f _ (by decide), f _ (by decide), f _ (by decide)]
    rfl

-- the hypotheses are met: the text of an object with one other member
example (j : JsonFloats Int) : unmarshal OneHotEncoder.dec b!"{\"Version\":3}" =
      some ⟨[], [], [], [], ⟨.separateIfSeen, .separateIfSeen, false⟩⟩ :=
  (C77_missing_members (F := Int) j (s := b!"{\"Version\":3}") (l := [(b!"Version", .num b!"3")]) (by rfl)
    (by intro e he; simp only [List.mem_singleton] at he; subst he; decide)).2.2.1

end Verif
