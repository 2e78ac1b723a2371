import Verif.Props.Burner
import Verif.Props.Hmom

/-!
# C76: the other burner programs
-/

namespace Soot

open Res Real
open scoped Classical

namespace Burn

theorem row_len {p : Profiles} {x : ℝ} : ∀ {cols ys}, p.row x cols = ok ys → ys.length = cols.length
  | [], ys, h => by cases h; rfl
  | c :: l, ys, h => by
    simp only [Profiles.row, bind_eq_ok] at h
    obtain ⟨y, _, zs, e, h⟩ := h
    cases h
    simp [row_len e]

theorem bio_gas {s s' : State} (h : getMtarYtar s = ok s') : s'.yGas = s.yGas := by
  simp only [getMtarYtar, bind_eq_ok] at h
  obtain ⟨_, _, _, _, _, _, _, _, _, _, _, _, h⟩ := h
  obtain ⟨_, _, _, _, _, _, _, _, _, _, _, _, _, _, _, _, _, _, _, _, h⟩ := h
  cases h; rfl

/-- A MONO evaluation with the AJ_RED tar model reads CO2, so it does not return on a shorter gas vector. -/
theorem aj_reads {m : Model} {s : State} (ht : m.tar = .AJ_RED) (hy : s.yGas.length ≤ 10) (r : Model × State) : monoSources m s ≠ ok r := by
  intro h
  simp only [monoSources, bind_eq_ok] at h
  obtain ⟨⟨M0, M1, s1⟩, h1, h⟩ := h
  have e1 : s1.yGas = s.yGas := by
    simp only [monoNodes, bind_eq_ok] at h1
    obtain ⟨x, _, z, _, e⟩ := h1
    by_cases h0 : x > 0
    · simp only [if_pos h0, bind_eq_ok] at e
      obtain ⟨w, _, a, _, e⟩ := e
      simp only [ok.injEq, Prod.mk.injEq] at e
      rw [← e.2.2]
    · simp only [if_neg h0, ok.injEq, Prod.mk.injEq] at e
      rw [← e.2.2]
  simp only [ht, bind_eq_ok] at h
  obtain ⟨N0, _, t, h2, _, _, q, h3, _⟩ := h
  obtain ⟨c, hc⟩ := monoTerms_st h2
  have e2 : t.st.yGas = s.yGas := by rw [hc]; exact e1
  simp only [ajSurface, State.gasP, bind_eq_ok] at h3
  obtain ⟨_, ⟨y, h4, _⟩, _⟩ := h3
  rw [e2, idx, List.getElem?_eq_none (by show s.yGas.length ≤ 10; exact hy)] at h4
  cases h4

theorem tarStage_false {eig : Eig} {p : Profiles} {cols : List Col} (hc : cols.length ≤ 10) {b : TarBurn} (hp : b.SM.psd = .MONO)
    (ht : b.SM.tar = .AJ_RED) {Mh : List ℝ} {tv x : ℝ} (r : Model × State × Option ℝ) : tarStage eig p cols b Mh tv x ≠ ok r := by
  intro h
  simp only [tarStage, bind_eq_ok] at h
  obtain ⟨y, h1, rho, _, T, _, mu, _, _, h2, s, h3, h4⟩ := h
  simp only [sourceTerms, hp, bind_eq_ok] at h4
  obtain ⟨q, h4, _⟩ := h4
  refine aj_reads ht ?_ q h4
  rw [bio_gas h3, Pure.set_ok h2]
  show y.length ≤ 10
  rw [row_len h1]; exact hc

end Burn

/-- **C76 (tar, refutation).** The tar version never finishes a step, whatever the profiles, the number of steps and the other mechanisms: the gas
vector has eight entries and the AJ_RED tar model reads entry 10 (CO2). -/
theorem C76_tar_false (eig : Eig) (p : Profiles) (n : NuclMech) (g : GrowMech) (o : OxidMech) (c : CoagMech) (N : ℕ) (hN : 1 ≤ N) (b : TarBurn) :
    tarMain eig p n g o c N ≠ ok (some b) := by
  intro h
  simp only [tarMain, bind_eq_ok] at h
  obtain ⟨t, _, h⟩ := h
  rcases t with _ | _
  · cases h
  simp only [bind_eq_ok] at h
  obtain ⟨m, hm, z0, _, z1, _, dz, _, _, _, b', h, _⟩ := h
  obtain ⟨k, rfl⟩ : ∃ k, N = k + 1 := ⟨N - 1, by omega⟩
  simp only [tarLoop, tarStep, bind_eq_ok] at h
  obtain ⟨_, ⟨⟨m1, s1, g1⟩, h, _⟩, _⟩ := h
  simp only [Model.newPtr, bind_eq_ok] at hm
  obtain ⟨_, _, hm⟩ := hm
  cases hm
  exact Burn.tarStage_false (by decide) rfl rfl _ h

/-- The configuration of burner_flame_tar.cc. -/
example (eig : Eig) (b : TarBurn) : tarMain eig exFlame .AJ_RED .HACA .AJ_RED .FM 20000 ≠ ok (some b) :=
  C76_tar_false eig exFlame _ _ _ _ 20000 (by norm_num) b

/-- **C76 (HMOM, refutation).** The HMOM version never finishes a step. -/
theorem C76_hmom_false (eig : Eig) (p : Profiles) (nsoot : ℕ) (n : NuclMech) (g : GrowMech) (o : OxidMech) (c : CoagMech) (N : ℕ) (hN : 1 ≤ N)
    (b : Burn) : burnMain eig p .HMOM nsoot n g o c N ≠ ok (some b) := by
  intro h
  simp only [burnMain, bind_eq_ok] at h
  obtain ⟨t, _, h⟩ := h
  rcases t with _ | _
  · cases h
  simp only [bind_eq_ok] at h
  obtain ⟨m, hm, z0, _, z1, _, dz, _, _, _, b', h, _⟩ := h
  obtain ⟨k, rfl⟩ : ∃ k, N = k + 1 := ⟨N - 1, by omega⟩
  simp only [burnLoop, burnStep, burnStage, bind_eq_ok] at h
  obtain ⟨_, ⟨_, ⟨y, _, rho, _, T, _, mu, _, _, _, h⟩, _⟩, _⟩ := h
  have hm' : Model.newPtr .HMOM nsoot (Nucl.new n) (Grow.new g) (Oxid.new o) ((Coag.new c).setFM (9.0 / 2.0 / 2.2)) 0 .NONE =
      ok { m with psd := .HMOM, coag := m.coag.setFM (9.0 / 2.0 / 2.2) } := by
    simp only [Model.new, Model.newPtr, bind_eq_ok] at hm ⊢
    obtain ⟨u, h1, h2⟩ := hm
    cases h2
    exact ⟨u, h1, rfl⟩
  have hp : m.psd = .HMOM := by
    simp only [Model.new, Model.newPtr, bind_eq_ok] at hm
    obtain ⟨u, h1, h2⟩ := hm
    cases h2; rfl
  simp only [sourceTerms, hp, bind_eq_ok] at h
  obtain ⟨q, h, _⟩ := h
  exact C35_hmom_false _ _ _ _ _ _ _ _ hm' _ q h

/-- **C76 (HMOM, the outcome).** In every physical flame the HMOM version runs into undefined behaviour in its first evaluation. -/
theorem C76_hmom_ub (eig : Eig) (p : Profiles) (hp : Flame p) (nsoot : ℕ) (n : NuclMech) (g : GrowMech) (o : OxidMech) (c : CoagMech)
    (h : BurnMechs p n g o) (hd : Documented .HMOM nsoot c .NONE) (hn : n ≠ .PAH) (N : ℕ) (hN : 1 ≤ N) : burnMain eig p .HMOM nsoot n g o c N = ub := by
  have h2 := hp.two
  have hN' : (N : ℝ) ≠ 0 := by exact_mod_cast (by omega : N ≠ 0)
  have hin : Burn.Inside p (p.z.getD 0 0) := by simpa using Burn.inside_step hp hN (Nat.zero_le N)
  have h4 : 4 ≤ nsoot ∧ nsoot ≤ 9 ∧ c ≠ .FUCHS ∧ c ≠ .NONE := by
    cases hd with
    | hmom k h1 h2 _ hc => exact ⟨by omega, by omega, by rintro rfl; simp at hc, by rintro rfl; simp at hc⟩
  obtain ⟨f, hf, hr⟩ := Burn.vals hp hin
  obtain ⟨ys, e1, e2, e3⟩ := Burn.row_ok hp hin gasFull fun _ h => h
  rw [hr, ok.injEq] at e1
  subst e1
  obtain ⟨rho, r1, r2⟩ := Burn.pos_ok hp hin (c := .rho) (by simp)
  rw [hf, ok.injEq] at r1; subst r1
  obtain ⟨T, t1, t2, t3⟩ := Burn.temp_le hp hin
  rw [hf, ok.injEq] at t1; subst t1
  obtain ⟨mu, u1, u2⟩ := Burn.pos_ok hp hin (c := .mu) (by simp)
  rw [hf, ok.injEq] at u1; subst u1
  have hA : Burn.ArgsOk p nsoot (f .T) (f .rho) (f .mu) (gasFull.map f) ((List.replicate nsoot 0).map (· * f .rho)) := ⟨t3, t2, r2, u2, e2, e3, by simp⟩
  have hk := Burn.ok_start .HMOM nsoot n g o c
  have hrd := Burn.ready h (by omega) hk hA
  have hs : sourceTerms eig (Burn.model .HMOM nsoot n g o c) none (stateAfter (State.mk' nsoot 0) (burnArgs (Burn.model .HMOM nsoot n g o c).nsoot
      (f .T) (f .rho) (f .mu) (Burn.pad (gasFull.map f)) ((List.replicate nsoot 0).map (· * f .rho)))) = ub := by
    have := C35_hmom_ub (Burn.model .HMOM nsoot n g o c) _ ⟨hrd, rfl, h4.1, h4.2.1, rfl, h4.2.2.1, by simp [stateAfter, burnArgs, Burn.model, exModel],
      fun hx => absurd hx hn⟩ h4.2.2.2
    unfold sourceTerms
    rw [show (Burn.model .HMOM nsoot n g o c).psd = .HMOM from rfl]
    simp only [this, ub_bind]
  have hC := C73_reads eig (Burn.model .HMOM nsoot n g o c) none (stateAfter (State.mk' nsoot 0) (burnArgs (Burn.model .HMOM nsoot n g o c).nsoot
    (f .T) (f .rho) (f .mu) (Burn.pad (gasFull.map f)) ((List.replicate nsoot 0).map (· * f .rho)))) (gasFull.map f) (by
      rw [hk.spec.nmech, hk.spec.grow, hk.spec.oxid, hk.spec.tar]; exact Burn.sameAt_pad h hA.ylen)
  rw [hs] at hC
  have hset := Burn.set_ok' hk hA (gasFull.map f) fun x hx => (e3 x hx).2
  have hst : burnStage eig p gasFull ⟨p.z.getD 0 0, List.replicate nsoot 0, State.mk' nsoot 0, Burn.model .HMOM nsoot n g o c, none⟩
      (List.replicate nsoot 0) (p.z.getD 0 0) = ub := by
    simp only [burnStage, hr, hf, ok_bind, hset]
    exact hC
  have hnew : Model.new .HMOM nsoot n g o c = ok (exModel .HMOM nsoot n g o c) := exModel_new ((ctorCheck_iff .HMOM (by simp) nsoot c .NONE).1 hd) n g o
  obtain ⟨k, rfl⟩ : ∃ k, N = k + 1 := ⟨N - 1, by omega⟩
  rw [burnMain, Burn.tables_ok hp, ok_bind]
  simp only [hnew, ok_bind, idx_getD (show 0 < p.z.length by omega), idx_getD (show p.z.length - 1 < p.z.length by omega), cdiv_ok hN', hf]
  rw [show ({ exModel .HMOM nsoot n g o c with coag := (exModel .HMOM nsoot n g o c).coag.setFM (9.0 / 2.0 / 2.2) } : Model) =
    Burn.model .HMOM nsoot n g o c from rfl]
  simp only [burnLoop, burnStep, hst, ub_bind]

/-- The configuration of burner_flame_HMOM.cc. -/
example (eig : Eig) : burnMain eig exFlame .HMOM 8 .LL .LL .LL .HM 20000 = ub :=
  C76_hmom_ub eig exFlame exFlame_ok 8 .LL .LL .LL .HM ⟨by simp, by simp⟩ (.hmom 7 (by norm_num) (by norm_num) _ (by simp)) (by simp) 20000
    (by norm_num)

end Soot
