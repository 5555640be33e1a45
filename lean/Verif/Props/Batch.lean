import Verif.Model.Batch
import Verif.Props.ExtcoTable
import Verif.Props.Analysis
/-
C141: the analysis command saves the coefficients of all LED arrays and channels, and post-processing shows them.
-/
namespace Ledsa

/-! ### Files -/

theorem CoeffDir.file_save {K : Type} (d : CoeffDir K) (name : Str) (content : ℕ × List (ℤ × List K)) (x : Str) :
    (d.save name content).file x = if x = name then some content else d.file x := by
  unfold CoeffDir.save CoeffDir.file
  rw [List.find?_append]
  by_cases hx : x = name
  · subst hx
    rw [if_pos rfl, List.find?_eq_none.2]
    · simp
    · intro f hf
      simpa using (List.mem_filter.1 hf).2
  · rw [if_neg hx]
    have h1 : (d.filter fun f => f.1 ≠ name).find? (fun f => f.1 = x) = d.find? fun f => f.1 = x := by
      rw [List.find?_filter]
      congr 1
      funext f
      by_cases hf : f.1 = x
      · simp [hf, hx]
      · simp [hf]
    rw [h1]
    cases d.find? fun f => f.1 = x with
    | none => simp [Ne.symm hx]
    | some f => rfl

theorem BatchJob.name_inj {K : Type} (j : BatchJob K) {p q : ℕ × ℕ} (h : j.name p = j.name q) : p = q := by
  obtain ⟨h1, _, h2⟩ := C52_distinct_files _ _ _ _ _ _ _ h
  exact Prod.ext h2 h1

/-! ### The loop -/

/-- What is saved for a pair, `none` if it is skipped or fails. -/
def BatchJob.saved {K : Type} (j : BatchJob K) (p : ℕ × ℕ) : Option (ℕ × List (ℤ × List K)) :=
  match j.one p with
  | .ok x => x
  | .error _ => none

theorem BatchJob.run_good {K : Type} (j : BatchJob K) : ∀ (pairs rest : List (ℕ × ℕ)) (d : CoeffDir K), (∀ p ∈ pairs, ∃ x, j.one p = .ok x) →
    ∃ d', j.run (pairs ++ rest) d = j.run rest d' ∧
      (∀ p ∈ pairs, ∀ x, j.one p = .ok (some x) → d'.file (j.name p) = some x) ∧
      ∀ name, (∀ p ∈ pairs, j.name p = name → j.one p = .ok none) → d'.file name = d.file name
  | [], rest, d, _ => ⟨d, rfl, by simp, fun _ _ => rfl⟩
  | p :: pairs, rest, d, h => by
    obtain ⟨x, hx⟩ := h p (by simp)
    cases x with
    | none =>
      obtain ⟨d', h1, h2, h3⟩ := BatchJob.run_good j pairs rest d fun q hq => h q (by simp [hq])
      refine ⟨d', ?_, ?_, ?_⟩
      · rw [List.cons_append, BatchJob.run, hx]
        exact h1
      · intro q hq y hy
        rcases List.mem_cons.1 hq with rfl | hq
        · rw [hx] at hy; cases hy
        · exact h2 q hq y hy
      · exact fun name hn => h3 name fun q hq => hn q (by simp [hq])
    | some x =>
      obtain ⟨d', h1, h2, h3⟩ := BatchJob.run_good j pairs rest (d.save (j.name p) x) fun q hq => h q (by simp [hq])
      refine ⟨d', ?_, ?_, ?_⟩
      · rw [List.cons_append, BatchJob.run, hx]
        exact h1
      · intro q hq y hy
        rcases List.mem_cons.1 hq with rfl | hq
        · rw [hx] at hy
          obtain rfl := Option.some.inj (Except.ok.inj hy)
          by_cases hm : q ∈ pairs
          · exact h2 q hm _ hx
          · rw [h3 (j.name q), CoeffDir.file_save, if_pos rfl]
            intro r hr he
            exact absurd (j.name_inj he ▸ hr) hm
        · exact h2 q hq y hy
      · intro name hn
        rw [h3 name fun q hq => hn q (by simp [hq]), CoeffDir.file_save, if_neg]
        intro e
        have := hn p (by simp) e.symm
        rw [hx] at this
        cases this

/-- **C141.** The command ends without exception iff every pair of LED array and channel is skipped or analysed. -/
theorem C141_ends_iff {K : Type} (j : BatchJob K) (pairs : List (ℕ × ℕ)) (d : CoeffDir K) :
    (j.run pairs d).2 = none ↔ ∀ p ∈ pairs, ∃ x, j.one p = .ok x := by
  induction pairs generalizing d with
  | nil => simp [BatchJob.run]
  | cons p pairs ih =>
    rw [BatchJob.run]
    cases h : j.one p with
    | error e => simp [h]
    | ok x =>
      cases x with
      | none => simp only [ih, List.forall_mem_cons, h]; simp
      | some x => simp only [ih, List.forall_mem_cons, h]; simp

/-- **C141.** The file of every pair before the first failing one holds times and coefficients of this pair; every other file is as it was. -/
theorem C141_failure {K : Type} (j : BatchJob K) (pre post : List (ℕ × ℕ)) (p : ℕ × ℕ) (e : PyErr) (hpre : ∀ q ∈ pre, ∃ x, j.one q = .ok x)
    (he : j.one p = .error e) (d : CoeffDir K) :
    (j.run (pre ++ p :: post) d).2 = some e ∧
    (∀ q ∈ pre, ∀ x, j.one q = .ok (some x) → (j.run (pre ++ p :: post) d).1.file (j.name q) = some x) ∧
    ∀ name, (∀ q ∈ pre, j.name q ≠ name) → (j.run (pre ++ p :: post) d).1.file name = d.file name := by
  obtain ⟨d', h1, h2, h3⟩ := j.run_good pre (p :: post) d hpre
  have hr : j.run (pre ++ p :: post) d = (d', some e) := by rw [h1, BatchJob.run, he]
  rw [hr]
  exact ⟨rfl, h2, fun name hn => h3 name fun q hq hqn => absurd hqn (hn q hq)⟩

/-- Refuted: a failing LED array stops the analysis of all following ones, however often the command is repeated; what post-processing finds for them is
what was there before. -/
theorem C141_following_false {K : Type} (j : BatchJob K) (pre post : List (ℕ × ℕ)) (p : ℕ × ℕ) (e : PyErr) (hpre : ∀ q ∈ pre, ∃ x, j.one q = .ok x)
    (he : j.one p = .error e) (d : CoeffDir K) (q : ℕ × ℕ) (_hq : q ∈ post) (hqp : q ∉ pre) (k : ℕ) :
    ((fun d' => (j.run (pre ++ p :: post) d').1)^[k] d).file (j.name q) = d.file (j.name q) := by
  induction k with
  | zero => rfl
  | succ k ih =>
    rw [Function.iterate_succ_apply', (C141_failure j pre post p e hpre he _).2.2, ih]
    intro r hr hn
    exact hqp (j.name_inj hn ▸ hr)

/-- **C141.** If all pairs are analysed, the file of every pair holds its times and coefficients; all other files are as they were. -/
theorem C141_saved {K : Type} (j : BatchJob K) (pairs : List (ℕ × ℕ)) (hs : ∀ x, j.skip x = false) (coefs : ℕ → ℕ → List (List K))
    (h : ∀ p ∈ pairs, j.analyse p.1 p.2 = .ok (coefs p.1 p.2) ∧ (coefs p.1 p.2).length = j.times.length) (d : CoeffDir K) :
    (j.run pairs d).2 = none ∧
    (∀ p ∈ pairs, (j.run pairs d).1.file (coeffName j.solver j.property p.2 p.1) = some (j.layers, j.times.zip (coefs p.1 p.2))) ∧
    ∀ name, (∀ p ∈ pairs, coeffName j.solver j.property p.2 p.1 ≠ name) → (j.run pairs d).1.file name = d.file name := by
  have hone : ∀ p ∈ pairs, j.one p = .ok (some (j.layers, j.times.zip (coefs p.1 p.2))) := by
    intro p hp
    unfold BatchJob.one columnStack
    rw [hs, (h p hp).1]
    simp only [if_pos (h p hp).2.symm]
    rfl
  obtain ⟨d', h1, h2, h3⟩ := j.run_good pairs [] d fun p hp => ⟨_, hone p hp⟩
  rw [List.append_nil] at h1
  rw [h1]
  exact ⟨rfl, fun p hp => h2 p hp _ (hone p hp), fun name hn => h3 name fun p hp e => absurd e (hn p hp)⟩

/-! ### From the command to post-processing -/

theorem perm_map_inv {α β : Type} {f : α → β} : ∀ {L : List α} {l : List β}, l.Perm (L.map f) → ∃ L' : List α, L'.Perm L ∧ l = L'.map f
  | [], l, h => ⟨[], List.Perm.refl _, by simpa using h⟩
  | a :: L, l, h => by
    have hm : f a ∈ l := h.mem_iff.2 (by simp)
    obtain ⟨s, t, rfl⟩ := List.append_of_mem hm
    have h2 : (s ++ t).Perm (L.map f) := by
      have := (List.perm_middle (a := f a) (l₁ := s) (l₂ := t)).symm.trans h
      exact (List.perm_cons _).1 this
    obtain ⟨L', hp, he⟩ := perm_map_inv h2
    obtain ⟨L1, L2, rfl, e1, e2⟩ := List.append_eq_map_iff.1 he
    exact ⟨L1 ++ a :: L2, List.perm_middle.trans (hp.cons a), by rw [List.map_append, List.map_cons, e1, e2]⟩

/-- Coefficients of `N` images and `n` layers. -/
def coefRows {K : Type} (N n : ℕ) (coef : ℕ → ℕ → K) : List (List K) := (List.range N).map fun (i : ℕ) => (List.range n).map fun (l : ℕ) => coef i l

theorem zip_range_map {α β : Type} (N : ℕ) (f : ℕ → α) (g : ℕ → β) :
    ((List.range N).map f).zip ((List.range N).map g) = (List.range N).map fun (i : ℕ) => (f i, g i) := by
  exact List.zip_map' 

/-- Which files exist after a run over different pairs in which everything is analysed: files of these pairs are replaced. -/
theorem BatchJob.run_replace {K : Type} (j : BatchJob K) (content : ℕ × ℕ → ℕ × List (ℤ × List K)) : ∀ (pairs : List (ℕ × ℕ)) (d : CoeffDir K),
    (∀ p ∈ pairs, j.one p = .ok (some (content p))) → pairs.Nodup →
    j.run pairs d = (d.filter (fun f => ∀ p ∈ pairs, f.1 ≠ j.name p) ++ pairs.map fun p => (j.name p, content p), none)
  | [], d, _, _ => by simp [BatchJob.run]
  | p :: pairs, d, h, hn => by
    rw [BatchJob.run, h p (by simp)]
    show j.run pairs (d.save (j.name p) (content p)) = _
    rw [BatchJob.run_replace j content pairs _ (fun q hq => h q (by simp [hq])) (List.nodup_cons.1 hn).2]
    congr 1
    unfold CoeffDir.save
    rw [List.filter_append, List.filter_filter, List.map_cons, List.append_assoc]
    congr 1
    · apply List.filter_congr
      intro f _
      rw [Bool.eq_iff_iff]
      simp only [Bool.and_eq_true, decide_eq_true_eq, List.forall_mem_cons]
      tauto
    · rw [List.filter_cons_of_pos]
      · rfl
      · rw [decide_eq_true_eq]
        intro q hq e
        exact (List.nodup_cons.1 hn).1 (j.name_inj e ▸ hq)

/-- A job whose analyses give the coefficients `coef c a i l` of photos `i < N` with times `time i`. -/
structure GoodBatch {K : Type} (j : BatchJob K) (pairs : List (ℕ × ℕ)) (N : ℕ) (time : ℕ → ℤ) (coef : ℕ → ℕ → ℕ → ℕ → K) : Prop where
  noSkip : ∀ x, j.skip x = false
  times : j.times = (List.range N).map time
  result : ∀ p ∈ pairs, j.analyse p.1 p.2 = .ok (coefRows N j.layers (coef p.2 p.1))

theorem GoodBatch.one {K : Type} {j : BatchJob K} {pairs : List (ℕ × ℕ)} {N : ℕ} {time : ℕ → ℤ} {coef : ℕ → ℕ → ℕ → ℕ → K}
    (h : GoodBatch j pairs N time coef) {p : ℕ × ℕ} (hp : p ∈ pairs) :
    j.one p = .ok (some (j.layers, (List.range N).map fun (i : ℕ) => (time i, (List.range j.layers).map fun (l : ℕ) => coef p.2 p.1 i l))) := by
  unfold BatchJob.one columnStack
  rw [h.noSkip, h.result p hp, h.times]
  simp only [coefRows, List.length_map, if_true, zip_range_map]
  rfl

/-- **C141.** From the command to post-processing: if the command is started without older results and all analyses succeed, every request shows, for
every order in which the files are found, the coefficient calculated for the channel, LED array, photo and layer, provided the photos were
taken in different seconds. -/
theorem C141_shown_partial {K : Type} (j : BatchJob K) (dir : Str) (hp : PlainPath dir j.solver j.property) (pairs : List (ℕ × ℕ)) (hnd : pairs.Nodup)
    (N : ℕ) (time : ℕ → ℤ) (ht : ∀ i < N, ∀ k < i, time k ≠ time i) (coef : ℕ → ℕ → ℕ → ℕ → K) (hj : GoodBatch j pairs N time coef)
    (files : List (Str × ℕ × List (ℤ × List K))) (hf : Globbed dir (j.run pairs []).1 files)
    (lo hi : ℚ) (hd : lo < hi) (c a : ℕ) (hm : (a, c) ∈ pairs) (i : ℕ) (hi' : i < N) (l : ℕ) (hl : l < j.layers) (h : ℚ) (hh : InLayer lo hi j.layers l h) :
    ∃ (t : ExtTable K) (byArray : Grid ℤ ℕ K) (byLayer : Grid ℤ ℤ K) (byTime : Grid ℕ ℤ K),
      allExtcos files = .ok t ∧
      t.atArray id c a = .ok byArray ∧ t.atLayer id c l = .ok byLayer ∧ t.atHeight id lo hi j.layers c h = .ok byLayer ∧ t.atTime id c (time i) = .ok byTime ∧
      (byArray.index[i]? = some (time i) ∧ ∃ v, (l, v) ∈ byArray.cols ∧ v[i]? = some (some (coef c a i l))) ∧
      (byLayer.index[i]? = some (time i) ∧ ∃ v, ((a : ℤ), v) ∈ byLayer.cols ∧ v[i]? = some (some (coef c a i l))) ∧
      (byTime.index[l]? = some l ∧ ∃ v, ((a : ℤ), v) ∈ byTime.cols ∧ v[l]? = some (some (coef c a i l))) := by
  have hrun := j.run_replace (fun p => (j.layers, (List.range N).map fun (i : ℕ) => (time i, (List.range j.layers).map fun (l : ℕ) => coef p.2 p.1 i l)))
    pairs [] (fun p hp => hj.one hp) hnd
  unfold Globbed at hf
  rw [hrun, List.filter_nil, List.nil_append, List.map_map] at hf
  obtain ⟨ps, hps, rfl⟩ := perm_map_inv hf
  have key := C138_every_photo_partial dir j.solver j.property hp (ps.map Prod.swap) ((hps.nodup_iff.2 hnd).map Prod.swap_injective) N j.layers time ht coef
    lo hi hd c a (List.mem_map.2 ⟨(a, c), hps.mem_iff.2 hm, rfl⟩) i hi' l hl h hh
  rw [List.map_map] at key
  exact key

theorem filter_append_split {α : Type} (P : α → Bool) {l r : List α} (hl : ∀ x ∈ l, P x = true) (hr : ∀ x ∈ r, P x = false) :
    (l ++ r).filter P = l := by
  rw [List.filter_append, List.filter_eq_self.2 hl, List.filter_eq_nil_iff.2 (fun x hx => by simp [hr x hx]), List.append_nil]

/-- Refuted: that only results of the latest analysis are shown. After a second analysis of some of the LED arrays (with other settings, hence other
coefficients) the table shows the new coefficients for these and the coefficients of the first analysis for the others. -/
theorem C141_latest_false {K : Type} (j j' : BatchJob K) (hsol : j'.solver = j.solver) (hprop : j'.property = j.property) (hlay : j'.layers = j.layers)
    (hlpos : 0 < j.layers) (dir : Str) (hp : PlainPath dir j.solver j.property) (old new : List (ℕ × ℕ)) (hnd : (old ++ new).Nodup) (N : ℕ)
    (time : ℕ → ℤ) (coef coef' : ℕ → ℕ → ℕ → ℕ → K) (hj : GoodBatch j (old ++ new) N time coef) (hj' : GoodBatch j' new N time coef')
    (files : List (Str × ℕ × List (ℤ × List K))) (hf : Globbed dir (j'.run new (j.run (old ++ new) []).1).1 files)
    (smooth : List (Option K) → List (Option K)) (a c : ℕ) (hm : (a, c) ∈ old ++ new) :
    ∃ t : ExtTable K, allExtcos files = .ok t ∧
      t.atArray smooth c a = .ok ⟨(FirstPhotos time N).map time, (List.range j.layers).map fun (l : ℕ) =>
        (l, smooth ((FirstPhotos time N).map fun (i : ℕ) => some (if (a, c) ∈ old then coef c a i l else coef' c a i l)))⟩ := by
  have hname : ∀ p, j'.name p = j.name p := fun p => by unfold BatchJob.name; rw [hsol, hprop]
  have h1 := j.run_replace _ (old ++ new) [] (fun p hp => hj.one hp) hnd
  have h2 := j'.run_replace _ new (j.run (old ++ new) []).1 (fun p hp => hj'.one hp) (List.nodup_append.1 hnd).2.1
  rw [h1, List.filter_nil, List.nil_append, List.map_append, filter_append_split] at h2
  rotate_left
  · intro x hx
    obtain ⟨p, hp1, rfl⟩ := List.mem_map.1 hx
    rw [decide_eq_true_eq]
    intro q hq e
    rw [hname] at e
    exact (List.nodup_append.1 hnd).2.2 p hp1 q hq (j.name_inj e)
  · intro x hx
    obtain ⟨p, hp1, rfl⟩ := List.mem_map.1 hx
    rw [decide_eq_false_iff_not]
    intro hall
    exact hall p hp1 (hname p).symm
  unfold Globbed at hf
  rw [h1, List.filter_nil, List.nil_append, List.map_append, h2] at hf
  set both : ℕ → ℕ → ℕ → ℕ → K := fun c a i l => if (a, c) ∈ old then coef c a i l else coef' c a i l with hboth
  have hfiles : files.Perm ((old ++ new).map fun p => writtenFile dir j.solver j.property N j.layers time both p.swap) := by
    refine hf.trans (List.Perm.of_eq ?_)
    rw [List.map_append, List.map_append, List.map_map, List.map_map]
    congr 1
    · apply List.map_congr_left
      intro p hp1
      simp only [Function.comp, writtenFile, hboth, BatchJob.name, Prod.fst_swap, Prod.snd_swap, Prod.mk.eta, if_pos hp1]
    · apply List.map_congr_left
      intro p hp1
      have hno : p ∉ old := fun h => (List.nodup_append.1 hnd).2.2 p h p hp1 rfl
      simp only [Function.comp, writtenFile, hboth, BatchJob.name, Prod.fst_swap, Prod.snd_swap, Prod.mk.eta, if_neg hno, hsol, hprop, hlay]
  obtain ⟨ps, hps, rfl⟩ := perm_map_inv hfiles
  have key := C138_array dir j.solver j.property hp (ps.map Prod.swap) ((hps.nodup_iff.2 hnd).map Prod.swap_injective) N j.layers hlpos time both smooth
    c a (List.mem_map.2 ⟨(a, c), hps.mem_iff.2 hm, rfl⟩)
  rw [List.map_map] at key
  exact key

theorem batchPairs_nodup {arrays channels : List ℕ} (ha : arrays.Nodup) (hc : channels.Nodup) : (batchPairs arrays channels).Nodup := by
  unfold batchPairs
  rw [List.nodup_flatMap]
  refine ⟨fun a _ => hc.map fun x y e => (Prod.mk.inj e).2, ha.imp fun {a b} hab x hx hy => ?_⟩
  obtain ⟨c, _, rfl⟩ := List.mem_map.1 hx
  obtain ⟨c', _, e⟩ := List.mem_map.1 hy
  exact hab (Prod.mk.inj e).1.symm

theorem mem_batchPairs {arrays channels : List ℕ} {a c : ℕ} : (a, c) ∈ batchPairs arrays channels ↔ a ∈ arrays ∧ c ∈ channels := by
  simp only [batchPairs, List.mem_flatMap, List.mem_map, Prod.mk.injEq]
  constructor
  · rintro ⟨a', ha, c', hc, rfl, rfl⟩
    exact ⟨ha, hc⟩
  · rintro ⟨ha, hc⟩
    exact ⟨a, ha, c, hc, rfl, rfl⟩

/-- Array 1 cannot be analysed: array 0 is saved, array 2 is not. -/
example : let j : BatchJob ℚ := ⟨"linear".toList, "sum_col_val".toList, 2, [0, 5], fun _ => false,
      fun a _ => if a = 1 then .error .systemExit else .ok [[0, 1 / 2], [1, 3 / 2]]⟩
    (j.run (batchPairs [0, 1, 2] [0]) []).2 = some .systemExit ∧
    (j.run (batchPairs [0, 1, 2] [0]) []).1.map (·.1) = [coeffName "linear".toList "sum_col_val".toList 0 0] := by
  decide +kernel

end Ledsa
