import Verif.Online.Multires
import Verif.Online.Shipped
import Verif.Runner.MultiresShipped

/-!
# C104: the credibilist node with the shipped configuration of the multi-resolution matcher, and examples
-/

set_option autoImplicit false
set_option linter.unusedSectionVars false

namespace Slam.Online
open Slam.Config (Str Table Server Provider stodDec m3rsmProps m3rsmWorld)
open Slam.Pub (Tr)
open Slam.Runner (Engine LaserMsg Serves Chooser ofMultires)
open Slam.Grid (Coord)
open Slam.Whole

variable {G H : Type}

/-- Specification: a launch file that gives all properties as text. -/
def textServer (l : List (Str × Str)) : Server ℝ := fun k => (l.lookup k).map .str

theorem same_texts {stod : Str → Option ℝ} {l : List (Str × Str)} (h : ∀ p ∈ l, p.2 ≠ "<unset>".toList)
    (hc : ∀ k ∈ Config.countKeys, ∀ v, l.lookup k.toList = some v → ∃ n : Nat, n < 2 ^ 31 ∧ Config.stoi v = some (n : Int) ∧
      Config.stoul v = some n) :
    Config.SameMeaning stod (textServer l) (Config.listed l) ∧ SameSkip (textServer l) (Config.listed l) := by
  have key : ∀ k : Str, Config.SameText (textServer l) (Config.listed l) k := by
    intro k
    unfold Config.SameText textServer Config.listed
    cases e : l.lookup k with
    | none => exact .inl ⟨rfl, rfl⟩
    | some v =>
      refine .inr ⟨v, rfl, rfl, ?_⟩
      obtain ⟨a, b, hab, -⟩ := List.lookup_eq_some_iff.1 e
      exact h (k, v) (by rw [hab]; simp)
  refine ⟨⟨fun k _ => key _, fun k _ => .inl (key _), fun k hk => ?_, fun k _ => .inl (key _), fun k _ => .inl (key _)⟩, .inl (key _)⟩
  rcases key k.toList with h' | ⟨v, h1, h2, h3⟩
  · exact .inl h'
  · obtain ⟨n, a1, a2, a3⟩ := hc k hk v h2
    exact .inr ⟨n, v, a1, h3, .inr h1, h2, a2, a3⟩

theorem m3rsm_same {stod : Str → Option ℝ} : Config.SameMeaning stod (textServer m3rsmProps) (Config.listed m3rsmProps) ∧
    SameSkip (textServer m3rsmProps) (Config.listed m3rsmProps) := by
  refine same_texts (by decide +kernel) ?_
  have h : ∀ k ∈ Config.countKeys, ((m3rsmProps.lookup k.toList).all fun v =>
      ((Config.stoi v).any fun n => decide (0 ≤ n ∧ n < 2 ^ 31 ∧ Config.stoul v = some n.toNat))) = true := by decide +kernel
  intro k hk v hv
  have := h k hk
  rw [hv, Option.all_some, Option.any_eq_true] at this
  obtain ⟨n, h1, h2⟩ := this
  simp only [decide_eq_true_eq] at h2
  exact ⟨n.toNat, by omega, by rw [h1, Int.toNat_of_nonneg h2.1], h2.2.2⟩

/-- **The credibilist node with the shipped multi-resolution configuration (C104)**: started with these properties, with assertions on, it
goes on over all deliveries of well-formed scans with a usable reading, whichever of the possible answers the matcher gives; every value
of a map that is sent is a percentage. -/
theorem online_credibilist_m3rsm {r : ℝ → ℝ} (F : Config.Fair r) (round : ℝ → Int) {rad : ℝ} (h0 : 0 ≤ rad) (h1 : rad ≤ 1 / 10) (rnd : Nat)
    {menv : MrEnv G} (hs : 0 ≤ menv.slack) (hf : 5000 ≤ menv.base.fuel) (hcf : 1 ≤ menv.base.cellFuel)
    {extent : G → Int × Int × Coord} {K : (P : MrProgram G) → Chooser P H} (hK : ∀ P, (K P).Faithful True)
    (N : Int) (hNok : ∀ v, |v| ≤ 6 * N → menv.base.ok v = true) (hl : 4 * N + 2 ≤ menv.base.lineFuel) (R B : ℝ) (hR : 0 ≤ R) :
    let setup := setupOf round (.ofServer round (stodDec r) (textServer m3rsmProps)) (textServer m3rsmProps)
    ∃ P, mainLaunched false round (stodDec r) (makeMultires true rad rnd menv extent K) (textServer m3rsmProps) =
        some ⟨ofMultires extent P (K P), start (ofMultires extent P (K P)) false setup⟩ ∧ P.kind = .tbm .credibilist ∧
      P.cfg.filter = ⟨0, -1⟩ ∧ P.cfg.slam.skipMax = false ∧ P.cfg.slam.tol = menv.base.tol ∧ P.cfg.slam.props.margin = 0 ∧
      ∀ ds : List Delivery, (∀ p ∈ found setup.odomFrame ds, |p.2.origin 0| ≤ B ∧ |p.2.origin 1| ≤ B ∧ GoodMsg P.cfg.slam R p.1.msg.body ∧
          Looks P.cfg p.1.msg.body) →
        (found setup.odomFrame ds).length * 1 + B + R ≤ r (1 / 10) * (N - 1) →
        ∃ n, (start (ofMultires extent P (K P)) false setup).run ds = some n ∧
          ∀ m ∈ gridsOf n.sent, m.resolution = r (1 / 10) ∧ ∀ v ∈ m.data, 0 ≤ v ∧ v ≤ 100 := by
  intro setup
  obtain ⟨n, c1, c2, hw⟩ := Config.credibilist_m3rsm_world F rad rnd
  have hw' : assemble true (stodDec r) rad rnd (Config.listed m3rsmProps) =
      some (m3rsmWorld r rad n .credibilist (9 / 10) (3 / 5)) := hw
  have hsen := m3rsm_sensible (env := menv) F h0 h1 n (by omega) .credibilist (.inr rfl) (9 / 10) (3 / 5)
    ⟨by norm_num [Cells.Unit01], by norm_num [Cells.Unit01]⟩ hs hf hcf
  have hwin : 4 * (1 : ℝ) ≤ (m3rsmWorld r rad n .credibilist (9 / 10) (3 / 5)).map.params.scale *
      ((max (m3rsmWorld r rad n .credibilist (9 / 10) (3 / 5)).map.params.width
        (m3rsmWorld r rad n .credibilist (9 / 10) (3 / 5)).map.params.height : Int) : ℝ) := by
    simp only [m3rsmWorld, max_self]
    have hn : (1000 : ℝ) ≤ n := by exact_mod_cast c1
    have := (fair_near F (v := 1 / 10) (by norm_num) (by norm_num)).1
    nlinarith
  obtain ⟨P, e1, hP, hk, hgo⟩ := online_credibilist_multires_total (round := round) (extent := extent) (K := K) (asserts := True)
    (m3rsm_same (stod := stodDec r)).1 (m3rsm_same (stod := stodDec r)).2 hw' hsen hwin hwin (by
      simp only [m3rsmWorld]
      constructor <;> exact le_trans c2 (by norm_num)) (fun P _ => hK P) N hNok hl R B hR
  obtain ⟨P', e, hc⟩ := launched_mr_starts hw' hsen
  rw [hP, Option.some.injEq] at e
  subst e
  refine ⟨P, e1, hk, hc.filter, ?_, ?_, by rw [hc.props]; rfl, fun ds hds hN => ?_⟩
  · rw [hc.skip]
    decide +kernel
  · obtain ⟨n', -, -, e⟩ := launchMr_some hw' hsen
    rw [hP, Option.some.injEq] at e
    subst e
    rfl
  · obtain ⟨nd, hn⟩ := hgo ds hds (by rw [max_self]; exact hN)
    exact ⟨nd, hn, fun m hm => online_multires_grids hw' hsen hP (hK P) hn hm⟩

/-! ## Non-vacuity -/

/-- The node handles three of four scans (`exampleDeliveries`). -/
example : ∃ (K : (P : MrProgram Unit) → Chooser P Unit) (P : MrProgram Unit) (setup : Setup)
    (n : Node (ofMultires (fun _ => (1000, 1000, ⟨0, 0⟩)) P (K P))),
    mainLaunched false (fun _ => 0) (stodDec Float.rne) (makeMultires true (1 / 60) 7 mrExampleEnv (fun _ => (1000, 1000, ⟨0, 0⟩)) K)
      (textServer m3rsmProps) = some ⟨ofMultires (fun _ => (1000, 1000, ⟨0, 0⟩)) P (K P), start (ofMultires (fun _ => (1000, 1000, ⟨0, 0⟩)) P (K P)) false setup⟩ ∧
    (start (ofMultires (fun _ => (1000, 1000, ⟨0, 0⟩)) P (K P)) false setup).run exampleDeliveries = some n ∧
    (found setup.odomFrame exampleDeliveries).length = 3 := by
  obtain ⟨K, hK⟩ : ∃ K : (P : MrProgram Unit) → Chooser P Unit, ∀ P, (K P).Faithful True :=
    ⟨fun P => (Runner.multires_exists P () True).choose, fun P => (Runner.multires_exists P () True).choose_spec⟩
  have hr := (Config.fair_nearest Float.rne_nearest).rel (1 / 10) (by norm_num [abs_of_pos]) (by norm_num [abs_of_pos])
  obtain ⟨P, h1, h2, h3, h4, h5, h6, h7⟩ := online_credibilist_m3rsm (Config.fair_nearest Float.rne_nearest) (fun _ => 0) (rad := 1 / 60)
    (by norm_num) (by norm_num) 7 (menv := mrExampleEnv) (le_refl _) (by decide) (by decide) (extent := fun _ => (1000, 1000, ⟨0, 0⟩)) (K := K)
    hK 1000000 (by intro v hv; simp only [mrExampleEnv, exampleEnv, decide_eq_true_eq]; omega) (by decide) 30 1 (by norm_num)
  have ho : (setupOf (fun _ => 0) (.ofServer (fun _ => 0) (stodDec Float.rne) (textServer m3rsmProps)) (textServer m3rsmProps)).odomFrame =
      "odom_combined".toList := by decide +kernel
  rw [ho] at h7
  have body : ∀ d ∈ exampleDeliveries.tail, d.msg.body = ⟨0, 0, 1, 0, 30, [some 20]⟩ := by
    intro d hd
    simp only [exampleDeliveries, List.tail_cons, List.mem_cons, List.not_mem_nil, or_false] at hd
    rcases hd with rfl | rfl | rfl <;> rfl
  have good : ∀ p ∈ found "odom_combined".toList exampleDeliveries, |p.2.origin 0| ≤ 1 ∧ |p.2.origin 1| ≤ 1 ∧
      GoodMsg P.cfg.slam 30 p.1.msg.body ∧ Looks P.cfg p.1.msg.body := by
    rw [example_found]
    intro p hp
    obtain ⟨d, hd, rfl⟩ := List.mem_map.1 hp
    simp only [body d hd]
    have hg : GoodMsg P.cfg.slam 30 ⟨0, 0, 1, 0, 30, [some 20]⟩ := by
      refine ⟨by simp, ?_, by norm_num, by norm_num, fun pts _ => ?_⟩
      · rw [h5]
        norm_num [mrExampleEnv, exampleEnv]
      · rw [h6]
        cases pts with
        | nil => exact .inl rfl
        | cons a l => exact .inr (by simp)
    exact ⟨by norm_num [exampleTr], by norm_num [exampleTr], hg, Runner.looks_of_reading hg h3 ⟨20, by simp, by norm_num, by norm_num, by norm_num⟩⟩
  obtain ⟨n, hn, -⟩ := h7 exampleDeliveries good (by
    rw [example_found]
    have := abs_le.1 hr
    norm_num [exampleDeliveries] at this ⊢
    linarith)
  refine ⟨K, P, _, n, h1, hn, ?_⟩
  rw [ho, example_found]
  rfl

/-- The single-hypothesis node with these properties comes to its loop, and handles three of four scans too. -/
example : ∃ (K : (P : MrProgram Unit) → Chooser P Unit) (P : MrProgram Unit) (setup : Setup)
    (n : Node (ofMultires (fun _ => (1000, 1000, ⟨0, 0⟩)) P (K P))),
    mainOneHypothesis Config.shipped 9 (fun _ => []) (fun _ => 0) (stodDec Float.rne)
      (makeMultires false (1 / 60) 7 mrExampleEnv (fun _ => (1000, 1000, ⟨0, 0⟩)) K) (textServer m3rsmProps) =
        some ⟨ofMultires (fun _ => (1000, 1000, ⟨0, 0⟩)) P (K P), start (ofMultires (fun _ => (1000, 1000, ⟨0, 0⟩)) P (K P)) false setup⟩ ∧
    (start (ofMultires (fun _ => (1000, 1000, ⟨0, 0⟩)) P (K P)) false setup).run exampleDeliveries = some n ∧
    (found setup.odomFrame exampleDeliveries).length = 3 := by
  obtain ⟨K, hK⟩ : ∃ K : (P : MrProgram Unit) → Chooser P Unit, ∀ P, (K P).Faithful False :=
    ⟨fun P => (Runner.multires_exists P () False).choose, fun P => (Runner.multires_exists P () False).choose_spec⟩
  have F := Config.fair_nearest Float.rne_nearest
  have hr := F.rel (1 / 10) (by norm_num [abs_of_pos]) (by norm_num [abs_of_pos])
  obtain ⟨n0, c1, c2, hw⟩ := Config.tiny_m3rsm_world F (1 / 60) 7
  have hw' : assemble false (stodDec Float.rne) (1 / 60) 7 (Config.listed m3rsmProps) =
      some (m3rsmWorld Float.rne (1 / 60) n0 .mean (Float.rne (9 / 10)) (Float.rne (3 / 5))) := hw
  have hsen := m3rsm_sensible (env := mrExampleEnv) F (rad := 1 / 60) (by norm_num) (by norm_num) n0 (by omega) .mean (.inl rfl)
    (Float.rne (9 / 10)) (Float.rne (3 / 5)) ⟨fair_unit F (by norm_num) (by norm_num), fair_unit F (by norm_num) (by norm_num)⟩ (le_refl _)
    (by decide) (by decide)
  have hsrv : Config.nodeInit Config.shipped 9 (fun _ => []) (textServer m3rsmProps) = some (textServer m3rsmProps) := by
    unfold Config.nodeInit
    rw [if_pos (by decide +kernel)]
  obtain ⟨P, e1, hP, hgo⟩ := online_multires_total (round := fun _ => 0) (extent := fun _ => (1000, 1000, ⟨0, 0⟩)) (K := K) (asserts := False)
    hsrv (m3rsm_same (stod := stodDec Float.rne)).1 (m3rsm_same (stod := stodDec Float.rne)).2 hw' hsen (fun P _ => hK P) (fun h => h.elim) 1000000
    (by intro v hv; simp only [mrExampleEnv, exampleEnv, decide_eq_true_eq]; omega) (by decide) 30 1 (by norm_num)
  obtain ⟨P', e, hc⟩ := launched_mr_starts hw' hsen
  rw [hP, Option.some.injEq] at e
  subst e
  have ho : (setupOf (fun _ => 0) (.ofServer (fun _ => 0) (stodDec Float.rne) (textServer m3rsmProps)) (textServer m3rsmProps)).odomFrame =
      "odom_combined".toList := by decide +kernel
  rw [ho] at hgo
  have htol : P.cfg.slam.tol = 0 := by
    obtain ⟨n', -, -, e⟩ := launchMr_some hw' hsen
    rw [hP, Option.some.injEq] at e
    subst e
    rfl
  have good : ∀ p ∈ found "odom_combined".toList exampleDeliveries, |p.2.origin 0| ≤ 1 ∧ |p.2.origin 1| ≤ 1 ∧
      GoodMsg P.cfg.slam 30 p.1.msg.body ∧ Looks P.cfg p.1.msg.body := by
    rw [example_found]
    intro p hp
    obtain ⟨d, hd, rfl⟩ := List.mem_map.1 hp
    have hb : d.msg.body = ⟨0, 0, 1, 0, 30, [some 20]⟩ := by
      simp only [exampleDeliveries, List.tail_cons, List.mem_cons, List.not_mem_nil, or_false] at hd
      rcases hd with rfl | rfl | rfl <;> rfl
    simp only [hb]
    have hg : GoodMsg P.cfg.slam 30 ⟨0, 0, 1, 0, 30, [some 20]⟩ := by
      refine ⟨by simp, ?_, by norm_num, by norm_num, fun pts _ => ?_⟩
      · rw [htol]
        norm_num
      · rw [show P.cfg.slam.props.margin = 0 by rw [hc.props]; rfl]
        cases pts with
        | nil => exact .inl rfl
        | cons a l => exact .inr (by simp)
    exact ⟨by norm_num [exampleTr], by norm_num [exampleTr], hg, Runner.looks_of_reading hg hc.filter ⟨20, by simp, by norm_num, by norm_num, by norm_num⟩⟩
  obtain ⟨n, hn⟩ := hgo exampleDeliveries good (by
    rw [example_found, max_self]
    have := abs_le.1 hr
    simp only [m3rsmWorld]
    norm_num [exampleDeliveries] at this ⊢
    linarith)
  refine ⟨K, P, _, n, e1, hn, ?_⟩
  rw [ho, example_found]
  rfl

end Slam.Online
