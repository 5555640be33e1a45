import Verif.Props.Startup
import Verif.Props.Config
import Verif.Props.Step3
import Verif.Props.NonlinearRun

/-!
# Supplements to C30, C123 and C146 found by testing with wrong programs
-/

namespace Ledsa

/-- The numbers of fields of a line of a result file that are known: the two present formats and the two old ones. -/
def knownFields : List ℕ := [4, 5, 15, 18]

/-- **C30, other files.** A line is read if and only if it has a known number of fields, and then every field gets exactly one column;
nothing is dropped and nothing is invented. -/
theorem C30_accepted_iff (imgId line : Str) :
    ((∃ row, loadRow imgId line = .ok row) ↔ (splitChar ',' line).length ∈ knownFields) ∧
    ∀ row, loadRow imgId line = .ok row → row.map (·.2) = imgId :: splitChar ',' line ∧ (row.map (·.1)).Nodup := by
  have hnames : ∀ n : ℕ, (columnNames n).length = n + 1 ↔ n ∈ knownFields := by
    intro n
    unfold columnNames oldColumns knownFields
    simp only [List.mem_cons, List.not_mem_nil, or_false]
    by_cases h6 : baseColumns.length < n
    · have hb : baseColumns.length = 6 := rfl
      rw [hb] at h6
      simp only [hb, h6, if_true]
      have hl : (baseColumns ++ fitColumns).length = 19 := rfl
      rw [hl]
      by_cases h18 : n = 18
      · subst h18; simp [hl]
      · rw [if_pos (by omega)]
        by_cases h15 : n = 15
        · subst h15; simp
        · rw [if_neg h15, if_neg (by omega)]
          simp; omega
    · have hb : baseColumns.length = 6 := rfl
      rw [hb] at h6
      simp only [hb, h6, if_false]
      by_cases h5 : n = 5
      · subst h5; simp [hb]
      · rw [if_pos (by omega), if_neg (by omega)]
        by_cases h4 : n = 4
        · subst h4; simp
        · rw [if_neg h4]
          simp; omega
  unfold loadRow
  simp only
  constructor
  · rw [← hnames]
    constructor
    · rintro ⟨row, h⟩
      by_contra hc
      rw [if_neg hc] at h
      cases h
    · intro h
      rw [if_pos h]
      exact ⟨_, rfl⟩
  · intro row h
    by_cases hc : (columnNames (splitChar ',' line).length).length = (splitChar ',' line).length + 1
    · rw [if_pos hc] at h
      injection h with h
      subst h
      refine ⟨?_, ?_⟩
      · rw [List.map_snd_zip]
        rw [hc]; rfl
      · rw [List.map_fst_zip (by rw [hc]; rfl)]
        have := (hnames _).1 hc
        generalize (splitChar ',' line).length = n at this
        simp only [knownFields, List.mem_cons, List.not_mem_nil, or_false] at this
        rcases this with rfl | rfl | rfl | rfl <;> decide
    · rw [if_neg hc] at h
      cases h

example : loadRow "1".toList "0,0,5,2,9".toList = .ok [("img_id", "1".toList), ("led_id", "0".toList), ("led_array_id", "0".toList),
    ("sum_col_val", "5".toList), ("mean_col_val", "2".toList), ("max_col_val", "9".toList)] := by decide
example : ¬ ∃ row, loadRow "1".toList "0,0,5,2,9,7".toList = .ok row := by
  rw [(C30_accepted_iff _ _).1]; decide

/-- The defaults as documented, /repo/ledsa/core/ConfigData.py 22-81. -/
def documentedDefaults : List (String × String × String) :=
  [("find_search_areas", "search_area_radius", "10"), ("find_search_areas", "pixel_value_percentile", "99.875"), ("find_search_areas", "channel", "0"),
   ("find_search_areas", "max_num_leds", "None"), ("DEFAULT", "img_directory", "None"), ("DEFAULT", "num_cores", "1"),
   ("DEFAULT", "date", "None"), ("DEFAULT", "start_time", "None"), ("analyse_positions", "num_arrays", "None"),
   ("analyse_photo", "num_skip_imgs", "0"), ("analyse_photo", "num_skip_leds", "0")]

/-- **C123, the new configuration**: the file written with `load_config_file=False` can be read, and every option has the documented default. -/
theorem C123_documented_defaults : ∃ c, readIni (writeIni (newConfig defaultArgs)) = .ok c ∧
    ∀ d ∈ documentedDefaults, lookup c d.1.toList d.2.1.toList = some (some [d.2.2.toList]) := by
  refine ⟨_, C55_round_trip _ (newConfig_good defaultArgs ?_), ?_⟩
  · intro a
    cases a <;> exact ⟨by decide, fun x hx => by cases hx⟩
  · decide +kernel

/-- **C146, incomplete results**: with two or more LEDs in the array file and another number of values (not one), the nonlinear analysis raises
`ValueError` and returns no coefficients. -/
theorem C146_mismatch (n : ℕ) (rows : List (List ℝ)) (o : NonlinearOptions) (rel : List ℝ) (h : rel.length ≠ rows.length) (h1 : rel.length ≠ 1)
    (h2 : rows.length ≠ 1) (r : Except PyErr (Fin n → ℝ)) : NonlinearImage n (rows.map some) o rel r ↔ r = .error .valueError := by
  unfold NonlinearImage
  rw [mapM_id_some]
  simp only
  rw [if_neg h, if_neg (by simp [h1, h2])]

example (r : Except PyErr (Fin 3 → ℝ)) : NonlinearImage 3 ([[1, 0, 0], [0, 1, 0], [0, 0, 1]].map some) ⟨1, 1, 0⟩ [1, 1 / 2] r ↔ r = .error .valueError :=
  C146_mismatch 3 _ _ _ (by decide) (by decide) (by decide) r

end Ledsa
