import Verif.Whole.FirstScan

/-!
# An instance of C115: GMapping with a single particle
-/

set_option autoImplicit false
set_option linter.unusedSectionVars false

namespace Slam.Whole
open Slam.Grid Slam.Cells Slam.Poses Slam.Sensor Slam.Score Slam.ScanAdder Slam.Worlds Slam.Matcher

/-- The least configuration, with one particle. -/
def gLone : Config.Table := gLeast.set "slam/particles/number".toList "1".toList

theorem glone_read (stod : Config.Str → Option ℝ) :
    Config.initGmapping stod gLone = some (gLeastWorld, ⟨0, 1 / 10, 0, 3 / 100, 3 / 5, 4 / 5, 3 / 10, 2 / 5⟩, 1) := by
  rw [Config.gmapping_as_configured]
  have hp : Config.gridParams stod gLone = some ⟨100, 100, 1 / 10⟩ := by
    have h1 : ⌈(10 : ℝ) / (1 / 10)⌉ = 100 := by norm_num
    have n1 : gLone "slam/map/height_in_meters".toList = none := by decide
    have n2 : gLone "slam/map/width_in_meters".toList = none := by decide
    have n3 : gLone "slam/map/meters_per_cell".toList = none := by decide
    simp only [Config.gridParams, Config.getDbl, n1, n2, n3, Option.bind_some, h1]
    rw [if_neg (by norm_num)]
    rfl
  exact
    { particles := (Config.getUint_iff _ _ _ _).1 (by decide +kernel), meanXY := Or.inl ⟨by decide, rfl⟩, sigmaXY := Or.inl ⟨by decide, rfl⟩
      meanTh := Or.inl ⟨by decide, rfl⟩, sigmaTh := Or.inl ⟨by decide, rfl⟩, minXY := Or.inl ⟨by decide, rfl⟩
      maxXY := Or.inl ⟨by decide, rfl⟩, minTh := Or.inl ⟨by decide, rfl⟩, maxTh := Or.inl ⟨by decide, rfl⟩
      qualities := ⟨rfl, rfl, rfl⟩, map := ⟨rfl, rfl, rfl, hp⟩, oopeType := Or.inl ⟨by decide, rfl⟩
      oope := ⟨_, _, rfl, Or.inl ⟨by decide, rfl⟩, Or.inl ⟨by decide, rfl⟩⟩
      spe := ⟨Or.inr (by decide), ⟨("even", .even), by simp, Or.inr (by decide), rfl⟩, Or.inl ⟨by decide, rfl⟩, Or.inl ⟨by decide, rfl⟩⟩
      matcher := ⟨rfl, rfl⟩
      adder := ⟨⟨("const", false), by simp, Or.inl ⟨by decide, rfl⟩, rfl⟩, Or.inl ⟨by decide, rfl⟩, Or.inl ⟨by decide, rfl⟩,
        Or.inl ⟨by decide, rfl⟩, Or.inl ⟨by decide, rfl⟩, ⟨("idle", false), by simp, Or.inl ⟨by decide, rfl⟩, rfl⟩,
        Or.inl ⟨by decide, rfl⟩, Or.inl ⟨by decide, rfl⟩⟩ }

theorem glone_sensible : GSensible gLeastWorld 1 where
  size := by norm_num [gLeastWorld]
  scale := by norm_num [gLeastWorld]
  occupied := by norm_num [gLeastWorld, Unit01]
  empty := by norm_num [gLeastWorld, Unit01]
  particles := by norm_num

/-- A message: a wall in four metres, straight ahead and to the left. -/
noncomputable def gLoneMsg (i : Nat) : GMsg :=
  ⟨⟨i, 0, 0⟩, ⟨0, 2, 1, 1 / 10, 30, [some 4, some 4, some 0]⟩, fun _ => ⟨1 / 10, 0, 0⟩, fun _ => ⟨7 / 10, 7 / 10, 3 / 10⟩, [1 / 2]⟩

theorem lone_rnd : ∀ x : ℝ, Unit01 x → Unit01 ((⌊x * 1024⌋ : ℝ) / 1024) ∧
    (⌊x * 1024⌋ : ℝ) / 1024 ∈ (Finset.range 1025).image fun n : Nat => (n : ℝ) / 1024 := by
  intro x hx
  have h1 : 0 ≤ ⌊x * 1024⌋ := Int.floor_nonneg.2 (by linarith [hx.1])
  have h2 : ⌊x * 1024⌋ ≤ 1024 := by
    have : ((⌊x * 1024⌋ : Int) : ℝ) ≤ ((1024 : Int) : ℝ) := (Int.floor_le _).trans (by push_cast; linarith [hx.2])
    exact_mod_cast this
  obtain ⟨n, hn⟩ := Int.eq_ofNat_of_zero_le h1
  rw [hn, Int.cast_natCast]
  have h3 : (n : ℝ) ≤ 1024 := by exact_mod_cast (by omega : n ≤ 1024)
  exact ⟨⟨by positivity, by rw [div_le_one (by norm_num)]; exact h3⟩, Finset.mem_image.2 ⟨n, Finset.mem_range.2 (by omega), rfl⟩⟩

theorem lone_mem {k : Nat} {d : GMsg} (hd : d ∈ [gLoneMsg 0, gLoneMsg 1] ++ List.replicate k (gLoneMsg 1)) : ∃ i, d = gLoneMsg i := by
  simp only [List.cons_append, List.nil_append, List.mem_cons, List.mem_replicate] at hd
  rcases hd with rfl | rfl | ⟨-, rfl⟩ <;> exact ⟨_, rfl⟩

theorem glone_total (stod : Config.Str → Option ℝ) (draws : Config.GmappingParams ℝ → Nat → Delta ℝ) {k : Nat} (hk : k ≤ 50) :
    ∃ P s, launchGmapping stod gLeastEnv (fun x => (⌊x * 1024⌋ : ℝ) / 1024) draws gLone = some P ∧
      P.start.run P.cfg ([gLoneMsg 0, gLoneMsg 1] ++ List.replicate k (gLoneMsg 1)) = some s ∧
      (∀ d ∈ [gLoneMsg 0, gLoneMsg 1] ++ List.replicate k (gLoneMsg 1), SamplesOk 1 d) ∧ P.start.matcher.pe.fullness = 1 / 10 := by
  obtain ⟨P, hP, hA, -⟩ := gmapping_launches (stod := stod) (env := gLeastEnv) (draws := draws) (fun x hx => (lone_rnd x hx).1)
    (glone_read stod) glone_sensible
  have hfull : P.start.matcher.pe.fullness = 1 / 10 := by
    rcases hA.fullness with ⟨-, h⟩ | ⟨v, h, -⟩
    · exact h
    · revert h
      have : gLone "slam/scmtch/oope/custom/fullness_threshold".toList = none := by decide
      rw [this]
      simp
  have hwin : P.start.matcher.pe.window = 1 := by
    rcases hA.window with ⟨-, h⟩ | ⟨v, k, h, -⟩
    · exact h
    · revert h
      have : gLone "slam/scmtch/oope/cutrom/window_size".toList = none := by decide
      rw [this]
      simp
  have hsam : ∀ d ∈ ([gLoneMsg 0, gLoneMsg 1] ++ List.replicate k (gLoneMsg 1)), SamplesOk 1 d := by
    intro d hd
    obtain ⟨i, rfl⟩ := lone_mem hd
    refine ⟨by simp [gLoneMsg], ?_⟩
    intro x hx
    rw [List.mem_singleton.1 hx]
    norm_num
  obtain ⟨s, hs⟩ := launched_gmapping_total (stod := stod) (env := gLeastEnv) (draws := draws) (fun x hx => (lone_rnd x hx).1)
    (glone_read stod) glone_sensible _ (fun x hx => (lone_rnd x hx).2) (by norm_num)
    (by
      have : ((Finset.range 1025).image fun n : Nat => (n : ℝ) / 1024).card ≤ 1025 := Finset.card_image_le.trans (by simp)
      simp only [gLeastEnv]
      omega) 4000000
    (by intro v hv; simp only [gLeastEnv, decide_eq_true_eq]; omega) (by norm_num [gLeastEnv]) hP
    (by rw [hfull]; norm_num) (R := 30) (G := 1 / 10) (D := 1) (by norm_num) (by norm_num) (by norm_num)
    (([gLoneMsg 0, gLoneMsg 1] ++ List.replicate k (gLoneMsg 1)))
    (by
      intro d hd
      refine ⟨hsam d hd, ?_, ?_⟩
      · obtain ⟨i, rfl⟩ := lone_mem hd
        refine ⟨by simp [gLoneMsg], ?_, by norm_num [gLoneMsg], by norm_num [gLoneMsg], ?_⟩
        · have ht : P.cfg.slam.tol = 1 / 100 := by
            obtain ⟨P', hP', -⟩ := gmapping_launches (stod := stod) (env := gLeastEnv) (draws := draws) (fun x hx => (lone_rnd x hx).1)
              (glone_read stod) glone_sensible
            unfold launchGmapping at hP
            rw [glone_read stod] at hP
            simp only [gLeastWorld, Option.bind_some, Option.bind_eq_some_iff, Option.map_eq_some_iff] at hP
            obtain ⟨m, -, st, -, rfl⟩ := hP
            rfl
          rw [ht]
          norm_num [gLoneMsg]
        · intro pts hp
          by_cases he : pts = []
          · exact .inl he
          · right
            have : P.cfg.slam.props.margin = 0 := by
              unfold launchGmapping at hP
              rw [glone_read stod] at hP
              simp only [gLeastWorld, Option.bind_some, Option.bind_eq_some_iff, Option.map_eq_some_iff] at hP
              obtain ⟨m, -, st, -, rfl⟩ := hP
              rfl
            rw [this]
            exact List.length_pos_of_ne_nil he
      · obtain ⟨i, rfl⟩ := lone_mem hd
        intro k
        norm_num [gLoneMsg])
    (by
      rw [hwin]
      simp only [List.length_append, List.length_cons, List.length_nil, List.length_replicate, growth, gLeastWorld]
      push_cast
      have hk' : (k : ℝ) ≤ 50 := by exact_mod_cast hk
      norm_num
      linarith)
    (by
      unfold SmallMoves
      simp only [List.cons_append, List.nil_append, List.map_cons, List.map_replicate, List.isChain_cons_cons]
      refine ⟨by norm_num [gLoneMsg], by norm_num [gLoneMsg], ?_⟩
      rw [← List.replicate_succ]
      exact List.isChain_replicate_of_rel _ (by norm_num [gLoneMsg]))
  exact ⟨P, s, hP, hs, hsam, hfull⟩

/-- A single particle: a metre driven, then up to fifty scans standing still. From the second scan on its weight is not a number. -/
example (stod : Config.Str → Option ℝ) : ∃ P s1, launchGmapping stod gLeastEnv (fun x => (⌊x * 1024⌋ : ℝ) / 1024)
      (fun _ _ => ⟨7 / 10, 7 / 10, 3 / 10⟩) gLone = some P ∧ P.start.run P.cfg [gLoneMsg 0, gLoneMsg 1] = some s1 ∧
    s1.st.pose = some ⟨1, 0, 0⟩ ∧ (∃ l, s1.st.filter.maps 0 = l ++ [⟨1, 0, 0⟩]) ∧
    ∀ k ≤ 50, ∃ s2, s1.run P.cfg (List.replicate k (gLoneMsg 1)) = some s2 ∧ s2.st.filter.particles.length = 1 ∧
      ∀ v ∈ s2.st.filter.particles, v.weight = none := by
  obtain ⟨P, s1, hP, hrun, hsam, hf⟩ := glone_total stod (fun _ _ => ⟨7 / 10, 7 / 10, 3 / 10⟩) (k := 0) (by norm_num)
  simp only [List.replicate_zero, List.append_nil] at hrun hsam
  have hrun' : P.start.run P.cfg ([gLoneMsg 0] ++ [gLoneMsg 1]) = some s1 := hrun
  obtain ⟨s0, h0, -⟩ := gown_run_snoc P.cfg [gLoneMsg 0] (gLoneMsg 1) _ _ hrun'
  have hs : ∀ d ∈ [gLoneMsg 0], ∃ scan, ScanOf P.cfg.slam d.msg scan := by
    intro d hd
    rw [List.mem_singleton.1 hd]
    simp only [GOwn.run, GOwn.handle, Option.bind_eq_some_iff] at h0
    obtain ⟨s', ⟨pts, e1, scan, e2, -⟩, -⟩ := h0
    exact ⟨scan, pts, e1, e2⟩
  obtain ⟨⟨l, r1⟩, -, r3⟩ := launched_first_loses (fun x hx => (lone_rnd x hx).1) (by norm_num) (glone_read stod) glone_sensible hP
    (by rw [hf]; norm_num) [gLoneMsg 0] hs (by intro k _; norm_num [Short, gone, gLoneMsg]) (gLoneMsg 1) (i := 0) (by norm_num)
    (by norm_num [Short, gone, gLoneMsg]) (by intro j hj; omega) hrun'
  obtain ⟨p1, p2⟩ := r3 rfl
  refine ⟨P, s1, hP, hrun, by rw [p1]; norm_num [gLoneMsg], ⟨l, by rw [r1]; norm_num [gLoneMsg]⟩, fun k hk => ?_⟩
  obtain ⟨P', s2, hP', hrun2, hsam2, -⟩ := glone_total stod (fun _ _ => ⟨7 / 10, 7 / 10, 3 / 10⟩) hk
  rw [hP, Option.some.injEq] at hP'
  subst hP'
  have happ : ∀ (a b : List GMsg) (s : GOwn (AnyMap (GmCell ℝ))), s.run P.cfg (a ++ b) = (s.run P.cfg a).bind fun s => s.run P.cfg b := by
    intro a
    induction a with
    | nil => intro b s; rfl
    | cons x a ih =>
      intro b s
      simp only [List.cons_append, GOwn.run]
      cases s.handle P.cfg x with
      | none => rfl
      | some s' => simp only [Option.bind_some]; exact ih b s'
  rw [happ, hrun, Option.bind_some] at hrun2
  obtain ⟨u1, u2⟩ := p2 _ s2 hsam2 hrun2
  exact ⟨s2, hrun2, u1, u2⟩

end Slam.Whole
