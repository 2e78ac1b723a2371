import Verif.Props.SectEvolution
import Verif.Props.Continuity

/-!
# Where coagulation takes the sections (C115)

Specification: `SectEvolution` (C107), written with `setState` and `sectSources` only, and the limits in the statements.
-/

namespace Soot

open Res Real Filter Topology Cont
open scoped Classical

namespace SectLong

/-- What two colliding particles lack to the last section is at most half of what it was. -/
theorem share_gap {n : ℕ} {b : ℕ → ℝ} (hn : 2 ≤ n) (hp : ∀ k < n, 0 < b k) (hb : ∀ k, k + 1 < n → b k < b (k + 1)) {i j : ℕ} (hi : i < n) (hj : j < n) :
    total n b (fun x => b (n - 1) - x) (fun k => SectDoc.share n b k (b i + b j)) ≤ ((b (n - 1) - b i) + (b (n - 1) - b j)) / 2 := by
  have mono : ∀ i j, i ≤ j → j < n → b i ≤ b j := by
    intro i j hij hj
    induction j, hij using Nat.le_induction with
    | base => exact le_rfl
    | succ j hij ih => exact (ih (by omega)).trans (hb j hj).le
  have pi := hp i hi
  have pj := hp j hj
  have mi := mono i (n - 1) (by omega) (by omega)
  have mj := mono j (n - 1) (by omega) (by omega)
  unfold total
  beta_reduce
  by_cases ht : b (n - 1) ≤ b i + b j
  · rw [Finset.sum_congr rfl fun k hk => by rw [SectDoc.share_top hb hn ht k (Finset.mem_range.1 hk)]]
    simp only [mul_ite, mul_zero]
    rw [Finset.sum_ite_eq' (Finset.range n) (n - 1), if_pos (Finset.mem_range.2 (by omega))]
    rw [sub_self, zero_mul]
    linarith
  · obtain ⟨l, hl, h1, h2⟩ := exists_bin (n := n) (b := b) (M := b i + b j) (by linarith [mono 0 i (Nat.zero_le _) hi]) (not_le.1 ht)
    rw [Finset.sum_congr rfl fun k hk => by rw [SectDoc.share_sums (hp 0 (by omega)) hb hl h1 h2 k (Finset.mem_range.1 hk)]]
    have e : ∀ k, (b (n - 1) - b k) * (if k = l then (b (l + 1) - (b i + b j)) / (b (l + 1) - b l) else if k = l + 1 then (b i + b j - b l) / (b (l + 1) - b l)
        else 0) = (if k = l then (b (n - 1) - b l) * ((b (l + 1) - (b i + b j)) / (b (l + 1) - b l)) else 0) +
        (if k = l + 1 then (b (n - 1) - b (l + 1)) * ((b i + b j - b l) / (b (l + 1) - b l)) else 0) := by
      intro k
      by_cases a : k = l
      · subst a; simp
      · by_cases c : k = l + 1
        · subst c; simp
        · simp [a, c]
    rw [Finset.sum_congr rfl fun k _ => e k, Finset.sum_add_distrib, Finset.sum_ite_eq', Finset.sum_ite_eq',
      if_pos (Finset.mem_range.2 (by omega)), if_pos (Finset.mem_range.2 hl)]
    have hd : 0 < b (l + 1) - b l := by linarith [hb l hl]
    have em : (b (n - 1) - b l) * ((b (l + 1) - (b i + b j)) / (b (l + 1) - b l)) + (b (n - 1) - b (l + 1)) * ((b i + b j - b l) / (b (l + 1) - b l)) =
        b (n - 1) - (b i + b j) := by
      field_simp; ring
    rw [em]
    linarith

/-- How fast coagulation brings the mass to the last section. -/
theorem coag_gap {n : ℕ} {b N : ℕ → ℝ} {β : ℝ → ℝ → ℝ} {β0 : ℝ} (hn : 2 ≤ n) (hp : ∀ k < n, 0 < b k) (hb : ∀ k, k + 1 < n → b k < b (k + 1))
    (hs : ∀ x y, β x y = β y x) (h0 : 0 ≤ β0) (hβ : ∀ i < n, ∀ j < n, β0 ≤ β (b i) (b j)) (hN : ∀ k < n, 0 ≤ N k) :
    total n b (fun x => b (n - 1) - x) (SectDoc.coag n b β N) ≤ -(β0 / 2) * (total n b (fun x => b (n - 1) - x) N * ∑ k ∈ Finset.range n, N k) := by
  have mono : ∀ i j, i ≤ j → j < n → b i ≤ b j := by
    intro i j hij hj
    induction j, hij using Nat.le_induction with
    | base => exact le_rfl
    | succ j hij ih => exact (ih (by omega)).trans (hb j hj).le
  have gap : ∀ i < n, 0 ≤ b (n - 1) - b i := fun i hi => by linarith [mono i (n - 1) (by omega) (by omega)]
  rw [total_coag hs]
  have : ∑ i ∈ Finset.range n, ∑ j ∈ Finset.range n, β (b i) (b j) * N i * N j *
      (total n b (fun x => b (n - 1) - x) (fun k => SectDoc.share n b k (b i + b j)) - (b (n - 1) - b i) - (b (n - 1) - b j)) ≤
      ∑ i ∈ Finset.range n, ∑ j ∈ Finset.range n, -(β0 / 2) * ((b (n - 1) - b i) * N i * N j + N i * ((b (n - 1) - b j) * N j)) :=
    Finset.sum_le_sum fun i hi => Finset.sum_le_sum fun j hj => by
      have hi := Finset.mem_range.1 hi
      have hj := Finset.mem_range.1 hj
      have g := share_gap hn hp hb hi hj
      have gi := gap i hi; have gj := gap j hj
      have nn := mul_nonneg (hN i hi) (hN j hj)
      have k1 := mul_le_mul_of_nonneg_right (hβ i hi j hj) nn
      have k2 : total n b (fun x => b (n - 1) - x) (fun k => SectDoc.share n b k (b i + b j)) - (b (n - 1) - b i) - (b (n - 1) - b j) ≤
          -(((b (n - 1) - b i) + (b (n - 1) - b j)) / 2) := by linarith
      have k3 := mul_le_mul_of_nonneg_left k2 ((mul_nonneg h0 nn).trans k1)
      have k4 := mul_le_mul_of_nonneg_right k1 (show 0 ≤ ((b (n - 1) - b i) + (b (n - 1) - b j)) / 2 by linarith)
      nlinarith
  have e : ∑ i ∈ Finset.range n, ∑ j ∈ Finset.range n, -(β0 / 2) * ((b (n - 1) - b i) * N i * N j + N i * ((b (n - 1) - b j) * N j)) =
      -(β0 / 2) * (2 * (total n b (fun x => b (n - 1) - x) N * ∑ k ∈ Finset.range n, N k)) := by
    simp only [← Finset.mul_sum, Finset.sum_add_distrib, ← Finset.sum_mul]
    rw [total]; ring
  rw [e] at this
  linarith

theorem growth_gap {n : ℕ} {b g : ℕ → ℝ} (hb : ∀ k, k + 1 < n → b k < b (k + 1)) (hg : ∀ k < n, 0 ≤ g k) :
    total n b (fun x => b (n - 1) - x) (SectDoc.growth n b g) ≤ 0 := by
  rw [total_growth]
  refine Finset.sum_nonpos fun k hk => ?_
  have hk := Finset.mem_range.1 hk
  by_cases h : k + 1 < n
  · rw [if_pos h]
    have hd := hb k h
    refine mul_nonpos_of_nonneg_of_nonpos (hg k hk) (div_nonpos_of_nonpos_of_nonneg ?_ ?_) <;> linarith
  · rw [if_neg h, show k = n - 1 by omega, sub_self, zero_div, mul_zero]

theorem val_pos2 {c : Coag} (hc : 0 < c.fmMult) (hn : c.mech ≠ .NONE) {s : State} (h : s.Phys) {x y : ℝ} (hx : mmin < x) (hy : mmin < y) : 0 < c.val s x y := by
  rw [val_core c s hx hy]
  exact core_pos hc hn h (mmin_pos.trans hx) (mmin_pos.trans hy)

variable {m : Model} {o : State} {a : SetArgs}

/-- The sources in a fixed gas, nothing nucleating and nothing burning: the mass does not fall, and what the particles lack to the last section falls at a rate. -/
theorem rates (h : SectGas m o a) (hg : GeoBins m) (hn : m.nucl.mech = .NONE) (ho : m.oxid.cls = .NONE) (hk : m.coag.mech ≠ .NONE) (h0 : mmin < m.mBins.getD 0 0) :
    ∃ β0 > 0, ∀ (v : Fin m.nsoot → ℝ) s glob m' s' g', (∀ k, 0 ≤ v k) → setState o { a with sootVar := List.ofFn v } = (s, ok ()) → OwnFactor m glob →
      sectSources m glob s = ok (m', s', g') →
      0 ≤ ∑ k : Fin m.nsoot, m.mBins.getD k 0 * m'.sources.soot.getD k 0 ∧
      ∑ k : Fin m.nsoot, (m.mBins.getD (m.nsoot - 1) 0 - m.mBins.getD k 0) * m'.sources.soot.getD k 0 ≤
        -(β0 / 2) * ((∑ k : Fin m.nsoot, (m.mBins.getD (m.nsoot - 1) 0 - m.mBins.getD k 0) * v k) * ∑ k, v k) := by
  obtain ⟨s0, e0, r0⟩ := h fun _ => 0
  set b : ℕ → ℝ := fun k => m.mBins.getD k 0 with hbd
  have hm2 : 2 ≤ m.nsoot := r0.bins.two
  have hp : ∀ k < m.nsoot, 0 < b k := fun k hk => r0.bins.pos hk
  have hb : ∀ k, k + 1 < m.nsoot → b k < b (k + 1) := fun k hk => r0.bins.mono k hk
  have big : ∀ k < m.nsoot, mmin < b k := fun k hk => by
    induction k with
    | zero => exact h0
    | succ k ih => exact (ih (by omega)).trans (hb k hk)
  have vp : ∀ i < m.nsoot, ∀ j < m.nsoot, 0 < m.coag.val s0 (b i) (b j) := fun i hi j hj => val_pos2 r0.fm hk r0.gas.acc.phys (big i hi) (big j hj)
  have ne : ((Finset.range m.nsoot) ×ˢ (Finset.range m.nsoot)).Nonempty := ⟨(0, 0), by simp; omega⟩
  refine ⟨((Finset.range m.nsoot) ×ˢ (Finset.range m.nsoot)).inf' ne fun p => m.coag.val s0 (b p.1) (b p.2), ?_, fun v s glob m' s' g' hv hs hgl hsr => ?_⟩
  · rw [gt_iff_lt, Finset.lt_inf'_iff]
    exact fun p hp => by
      rw [Finset.mem_product, Finset.mem_range, Finset.mem_range] at hp
      exact vp _ hp.1 _ hp.2
  set β0 := ((Finset.range m.nsoot) ×ˢ (Finset.range m.nsoot)).inf' ne fun p => m.coag.val s0 (b p.1) (b p.2) with hβ0
  have β0p : 0 ≤ β0 := by
    refine Finset.le_inf' _ _ fun p hp => ?_
    rw [Finset.mem_product, Finset.mem_range, Finset.mem_range] at hp
    exact (vp _ hp.1 _ hp.2).le
  obtain ⟨s1, e1, r⟩ := h v
  rw [hs] at e1
  simp only [Prod.mk.injEq, and_true] at e1
  subst e1
  obtain ⟨m'', s'', g'', J, n', kG, kO, β, mD, nD, nuc, gro, con, oxi, coa, h1, h2, h3, h4, h5, h6, ⟨q1, q2, q3, q4, q5⟩, h7, h8⟩ := C95_sect m s glob r hg hgl
  rw [hsr] at h1
  simp only [ok.injEq, Prod.mk.injEq] at h1
  obtain ⟨rfl, rfl, rfl⟩ := h1
  have hJ : J = 0 ∧ n' = m.nucl ∧ s' = s := by
    simp [Nucl.rate, hn] at h2
    exact ⟨h2.1.symm, h2.2.1.symm, h2.2.2.symm⟩
  obtain ⟨rfl, rfl, rfl⟩ := hJ
  have hkO : kO = 0 := by simp [Oxid.rate, ho] at h4; exact h4.symm
  have hD : mD = 0 ∧ nD = 0 := by rw [hn] at h6; simpa using h6
  have z1 : nuc = 0 := by funext k; simp [q1]
  have z3 : con = 0 := by funext k; simp [q3, hD.1, SectDoc.growth]
  have z4 : oxi = 0 := by funext k; simp [q4, hkO, SectDoc.oxidation]
  have tz : ∀ φ, total m.nsoot (fun k => m.mBins.getD k 0) φ (0 : ℕ → ℝ) = 0 := fun φ => by simp [total]
  have N : ∀ k : Fin m.nsoot, s'.sootVar.getD k 0 = v k := fun k => by rw [contents_stored hs k, max_eq_left (hv k)]
  have N0 : ∀ k < m.nsoot, 0 ≤ s'.sootVar.getD k 0 := fun k hk => by rw [N ⟨k, hk⟩]; exact hv _
  have eβ : ∀ x y, β x y = m.coag.val s0 x y := fun x y => by
    have := (h5 x y).symm.trans (r.coag x y)
    simp only [ok.injEq] at this
    rw [this, setState_contents e0 hs]; rfl
  have sym : ∀ x y, β x y = β y x := fun x y => by
    have := (h5 x y).symm.trans ((C12_kernel_symmetric m.coag s' x y).trans (h5 y x))
    simpa using this
  have fs : ∀ f : ℕ → ℝ, ∑ k : Fin m.nsoot, f k = ∑ k ∈ Finset.range m.nsoot, f k := fun f => Fin.sum_univ_eq_sum_range f m.nsoot
  have T1 := (h8 fun x => x)
  obtain ⟨-, c2, c3, c4⟩ := T1
  have c2 := c2 (convexOn_id (convex_Ici 0)) le_rfl
  have c3 := (c3 (fun x _ y _ h => h) le_rfl).2.1
  rw [z1, z3, z4, tz] at c4
  refine ⟨?_, ?_⟩
  · rw [fs fun k => m.mBins.getD k 0 * m'.sources.soot.getD k 0]
    have e : total m.nsoot (fun k => m.mBins.getD k 0) (fun x => x) (fun k => m'.sources.soot.getD k 0) =
      ∑ k ∈ Finset.range m.nsoot, m.mBins.getD k 0 * m'.sources.soot.getD k 0 := rfl
    rw [← e, c4]
    linarith
  · obtain ⟨-, -, -, d4⟩ := h8 fun x => b (m.nsoot - 1) - x
    rw [z1, z3, z4, tz] at d4
    have kG0 : 0 ≤ kG := by
      obtain ⟨_, _, _, _, _, kG', _, _, _, _, w1, -, w2, -, w4, -, -, -, ⟨-, -, p3, -⟩, -⟩ := C70_sect_equations m s' glob r hg hgl
      rw [hsr] at w1
      simp only [ok.injEq, Prod.mk.injEq] at w1
      rw [← w1.2.1, h3] at w4
      simp only [ok.injEq] at w4
      rw [w4]; exact p3
    have g1 : total m.nsoot b (fun x => b (m.nsoot - 1) - x) gro ≤ 0 := by
      rw [q2]
      exact growth_gap hb fun k hk => mul_nonneg (mul_nonneg kG0 (SectDoc.area_nonneg (hp k hk).le)) (N0 k hk)
    have g2 : total m.nsoot b (fun x => b (m.nsoot - 1) - x) coa ≤ -(β0 / 2) *
        (total m.nsoot b (fun x => b (m.nsoot - 1) - x) (fun k => s'.sootVar.getD k 0) * ∑ k ∈ Finset.range m.nsoot, s'.sootVar.getD k 0) := by
      rw [q5]
      exact coag_gap (β0 := β0) hm2 hp hb sym β0p (fun i hi j hj => by
        rw [eβ]
        exact Finset.inf'_le (fun p : ℕ × ℕ => m.coag.val s0 (b p.1) (b p.2)) (b := (i, j)) (by simp [hi, hj])) N0
    rw [fs fun k => (m.mBins.getD (m.nsoot - 1) 0 - m.mBins.getD k 0) * m'.sources.soot.getD k 0]
    have eN : total m.nsoot b (fun x => b (m.nsoot - 1) - x) (fun k => s'.sootVar.getD k 0) =
        ∑ k : Fin m.nsoot, (m.mBins.getD (m.nsoot - 1) 0 - m.mBins.getD k 0) * v k := by
      rw [total, ← fs]
      exact Finset.sum_congr rfl fun k _ => by rw [N]
    have eS : ∑ k ∈ Finset.range m.nsoot, s'.sootVar.getD k 0 = ∑ k, v k := by
      rw [← fs fun k => s'.sootVar.getD k 0]
      exact Finset.sum_congr rfl fun k _ => by rw [N]
    rw [eN, eS] at g2
    have d4 : ∑ k ∈ Finset.range m.nsoot, (m.mBins.getD (m.nsoot - 1) 0 - m.mBins.getD k 0) * m'.sources.soot.getD k 0 =
      0 + total m.nsoot b (fun x => b (m.nsoot - 1) - x) gro + 0 + 0 + total m.nsoot b (fun x => b (m.nsoot - 1) - x) coa := d4
    rw [d4]
    linarith

end SectLong

variable {m : Model} {o : State} {a : SetArgs}

theorem SectEvolution.restrict {O : ℝ → State} {G : ℝ → Option ℝ} {A : ℝ → SetArgs} {τ τ' : ℝ} {N : ℝ → Fin m.nsoot → ℝ} (h : SectEvolution m O G A τ N) (hτ : τ' ≤ τ) :
    SectEvolution m O G A τ' N :=
  ⟨h.cont.mono (Set.Icc_subset_Icc_right hτ), fun t ht => h.rate t ⟨ht.1, ht.2.trans_le hτ⟩⟩

theorem SectEvolution.congr {O : ℝ → State} {G : ℝ → Option ℝ} {A : ℝ → SetArgs} {τ : ℝ} {N N' : ℝ → Fin m.nsoot → ℝ} (h : SectEvolution m O G A τ N)
    (e : Set.EqOn N' N (Set.Icc 0 τ)) : SectEvolution m O G A τ N' := by
  refine ⟨h.cont.congr e, fun t ht => ?_⟩
  have ht' : t ∈ Set.Icc 0 τ := ⟨ht.1, ht.2.le⟩
  obtain ⟨s, m', s', g', r1, r2, r3⟩ := h.rate t ht
  rw [← e ht'] at r1
  refine ⟨s, m', s', g', r1, r2, r3.congr_of_eventuallyEq ?_ (e ht')⟩
  filter_upwards [Icc_mem_nhdsGE_of_mem ht] with u hu using e hu

/-- **C115 (one evolution, for ever).** In a gas that stays as it is, with no rate depending on the contents, there is one evolution of the section contents from any
non-negative start, and it lasts for ever. -/
theorem C115_sect_global {glob : Option ℝ} (h : SectGas m o a) (hg : GeoBins m) (hG : OwnFactor m glob) (hn : m.nucl.mech ≠ .PAH) (hL : m.grow.mech ≠ .LL)
    (hH : m.grow.mech ≠ .HACA) (ho : m.oxid.cls ≠ .HACA) {v : Fin m.nsoot → ℝ} (h0 : ∀ k, 0 ≤ v k) :
    ∃ N, N 0 = v ∧ (∀ τ, SectEvolution m (fun _ => o) (fun _ => glob) (fun _ => a) τ N) ∧
      ∀ τ N', SectEvolution m (fun _ => o) (fun _ => glob) (fun _ => a) τ N' → N' 0 = v → Set.EqOn N' N (Set.Icc 0 τ) := by
  choose R R0 hR using fun n : ℕ => C108_sect_exists_partial m o glob a n n.cast_nonneg h hg hG hn hL hH ho v h0
  have uniq : ∀ τ N₁ N₂, SectEvolution m (fun _ => o) (fun _ => glob) (fun _ => a) τ N₁ → SectEvolution m (fun _ => o) (fun _ => glob) (fun _ => a) τ N₂ →
      N₁ 0 = v → N₂ 0 = v → Set.EqOn N₁ N₂ (Set.Icc 0 τ) :=
    fun τ N₁ N₂ h1 h2 e1 e2 => C108_sect_unique_partial m o _ a τ N₁ N₂ h hg (fun _ => hG) hn hL hH ho h1 h2 (e1 ▸ h0) (e1.trans e2.symm)
  set N : ℝ → Fin m.nsoot → ℝ := fun t => R ⌈t⌉₊ t with hN
  have eN : ∀ n : ℕ, Set.EqOn N (R n) (Set.Icc 0 n) := fun n t ht => by
    have hc : (⌈t⌉₊ : ℝ) ≤ n := by exact_mod_cast Nat.ceil_le.2 ht.2
    exact uniq ⌈t⌉₊ _ _ (hR _) ((hR n).restrict hc) (R0 _) (R0 n) ⟨ht.1, Nat.le_ceil t⟩
  have run : ∀ τ, SectEvolution m (fun _ => o) (fun _ => glob) (fun _ => a) τ N := fun τ => ((hR ⌈τ⌉₊).congr (eN _)).restrict (Nat.le_ceil τ)
  have N0 : N 0 = v := by simp only [hN]; exact R0 _
  exact ⟨N, N0, run, fun τ N' h' e' => uniq τ _ _ h' (run τ) e' N0⟩

/-- **C115 (coagulation empties all sections but the last).** In a gas that stays as it is, nothing nucleating and nothing burning, with any growth and any kernel and
section masses above the cutoff mass: along every evolution with some soot, what the particles lack to the mass of the last section falls exponentially, at a rate that
depends on gas, model and first contents only.  Every section but the last one empties; without growth the last one ends with all the mass. -/
theorem C115_sect_last {G : ℝ → Option ℝ} (h : SectGas m o a) (hg : GeoBins m) (hG : ∀ t, OwnFactor m (G t)) (hn : m.nucl.mech = .NONE) (ho : m.oxid.cls = .NONE)
    (hk : m.coag.mech ≠ .NONE) (hb0 : mmin < m.mBins.getD 0 0) {v : Fin m.nsoot → ℝ} (h0 : ∀ k, 0 ≤ v k) (hv : ∃ k, 0 < v k) :
    (∃ r > 0, ∀ τ N, SectEvolution m (fun _ => o) G (fun _ => a) τ N → N 0 = v → ∀ t ∈ Set.Icc 0 τ,
      ∑ k : Fin m.nsoot, (m.mBins.getD (m.nsoot - 1) 0 - m.mBins.getD k 0) * N t k ≤
        (∑ k : Fin m.nsoot, (m.mBins.getD (m.nsoot - 1) 0 - m.mBins.getD k 0) * v k) * exp (-r * t)) ∧
    ∀ N, N 0 = v → (∀ τ, SectEvolution m (fun _ => o) G (fun _ => a) τ N) →
      (∀ k : Fin m.nsoot, (k : ℕ) + 1 < m.nsoot → Tendsto (fun t => N t k) atTop (𝓝 0)) ∧
      (m.grow.mech = .NONE → ∀ k : Fin m.nsoot, (k : ℕ) + 1 = m.nsoot →
        Tendsto (fun t => N t k) atTop (𝓝 ((∑ i : Fin m.nsoot, m.mBins.getD i 0 * v i) / m.mBins.getD k 0))) := by
  obtain ⟨β0, β0p, hr⟩ := SectLong.rates h hg hn ho hk hb0
  obtain ⟨s0, e0, r0⟩ := h fun _ => 0
  set b : ℕ → ℝ := fun k => m.mBins.getD k 0 with hbd
  have hm2 : 2 ≤ m.nsoot := r0.bins.two
  have hp : ∀ k < m.nsoot, 0 < b k := fun k hk => r0.bins.pos hk
  have hb : ∀ k, k + 1 < m.nsoot → b k < b (k + 1) := fun k hk => r0.bins.mono k hk
  have mono : ∀ i j, i ≤ j → j < m.nsoot → b i ≤ b j := by
    intro i j hij hj
    induction j, hij using Nat.le_induction with
    | base => exact le_rfl
    | succ j hij ih => exact (ih (by omega)).trans (hb j hj).le
  set B := b (m.nsoot - 1) with hB
  have B0 : 0 < B := hp _ (by omega)
  have le : ∀ k : Fin m.nsoot, b k ≤ B := fun k => mono k _ (by omega) (by omega)
  set W := ∑ k : Fin m.nsoot, b k * v k with hW
  have W0 : 0 < W := by
    obtain ⟨k, hk⟩ := hv
    exact Finset.sum_pos' (fun i _ => mul_nonneg (hp i i.2).le (h0 i)) ⟨k, Finset.mem_univ k, mul_pos (hp k k.2) hk⟩
  have key : ∀ τ N, SectEvolution m (fun _ => o) G (fun _ => a) τ N → N 0 = v → ∀ t ∈ Set.Icc 0 τ, (∀ k, 0 ≤ N t k) ∧
      ∑ k : Fin m.nsoot, (B - b k) * N t k ≤ (∑ k : Fin m.nsoot, (B - b k) * v k) * exp (-(β0 * W / (2 * B)) * t) := by
    intro τ N hN e t ht
    have nn : ∀ k, ∀ t ∈ Set.Icc 0 τ, 0 ≤ N t k := fun k => C107_sect_nonneg m _ G _ τ N hg (fun t _ => hG t) (h.calls τ) hN k (by rw [e]; exact h0 k)
    refine ⟨fun k => nn k t ht, ?_⟩
    obtain ⟨hc, hd⟩ := hN
    choose s m' s' g' r1 r2 r3 using hd
    set d : ℝ → Fin m.nsoot → ℝ := fun t k => if ht : t ∈ Set.Ico 0 τ then (m' t ht).sources.soot.getD k 0 else 0 with hdd
    have hd : ∀ t (ht : t ∈ Set.Ico 0 τ), d t = fun k : Fin m.nsoot => (m' t ht).sources.soot.getD k 0 := fun t ht => by
      funext k; simp only [hdd, dif_pos ht]
    have cT : ∀ φ : ℝ → ℝ, ContinuousOn (fun t => ∑ k : Fin m.nsoot, φ (b k) * N t k) (Set.Icc 0 τ) := fun φ =>
      continuousOn_finsetSum _ fun k _ => continuousOn_const.mul (continuousOn_pi.1 hc k)
    have dT : ∀ (φ : ℝ → ℝ), ∀ t ∈ Set.Ico 0 τ, HasDerivWithinAt (fun t => ∑ k : Fin m.nsoot, φ (b k) * N t k) (∑ k : Fin m.nsoot, φ (b k) * d t k)
        (Set.Ici t) t := fun φ t ht =>
      HasDerivWithinAt.fun_sum fun k _ => (hasDerivWithinAt_pi.1 (hd t ht ▸ r3 t ht) k).const_mul _
    have rt : ∀ t (ht : t ∈ Set.Ico 0 τ), 0 ≤ ∑ k : Fin m.nsoot, b k * d t k ∧
        ∑ k : Fin m.nsoot, (B - b k) * d t k ≤ -(β0 / 2) * ((∑ k : Fin m.nsoot, (B - b k) * N t k) * ∑ k, N t k) := fun t ht => by
      rw [hd t ht]
      exact hr (N t) _ _ _ _ _ (fun k => nn k t ⟨ht.1, ht.2.le⟩) (r1 t ht) (hG t) (r2 t ht)
    have mass : ∀ t ∈ Set.Icc 0 τ, W ≤ ∑ k : Fin m.nsoot, b k * N t k := fun t ht => by
      have := antitone_of_right (f := fun t => -∑ k : Fin m.nsoot, b k * N t k) (f' := fun t => -∑ k : Fin m.nsoot, b k * d t k) (cT fun x => x).neg
        (fun t ht => (dT (fun x => x) t ht).neg) (fun t ht => neg_nonpos.2 (rt t ht).1) ⟨le_rfl, ht.1.trans ht.2⟩ ht ht.1
      simp only [e, neg_le_neg_iff] at this
      exact this
    have num : ∀ t ∈ Set.Icc 0 τ, W / B ≤ ∑ k, N t k := fun t ht => by
      rw [div_le_iff₀ B0, Finset.sum_mul]
      refine (mass t ht).trans (Finset.sum_le_sum fun k _ => ?_)
      rw [mul_comm]
      exact mul_le_mul_of_nonneg_left (le k) (nn k t ht)
    set r := β0 * W / (2 * B) with hrr
    have he : ∀ t, HasDerivAt (fun t => exp (r * t)) (exp (r * t) * r) t := fun t => by
      simpa using ((hasDerivAt_id t).const_mul r).exp
    have := antitone_of_right (f := fun t => (∑ k : Fin m.nsoot, (B - b k) * N t k) * exp (r * t))
      (f' := fun t => (∑ k : Fin m.nsoot, (B - b k) * d t k) * exp (r * t) + (∑ k : Fin m.nsoot, (B - b k) * N t k) * (exp (r * t) * r)) (τ := τ)
      ((cT fun x => B - x).mul (by fun_prop)) (fun t ht => (dT (fun x => B - x) t ht).mul (he t).hasDerivWithinAt) (fun t ht => by
        have ht' : t ∈ Set.Icc 0 τ := ⟨ht.1, ht.2.le⟩
        have D0 : 0 ≤ ∑ k : Fin m.nsoot, (B - b k) * N t k := Finset.sum_nonneg fun k _ => mul_nonneg (sub_nonneg.2 (le k)) (nn k t ht')
        have k1 := (rt t ht).2
        have k2 := mul_le_mul_of_nonneg_left (mul_le_mul_of_nonneg_left (num t ht') D0) (show 0 ≤ β0 / 2 by positivity)
        have e : β0 / 2 * ((∑ k : Fin m.nsoot, (B - b k) * N t k) * (W / B)) = r * ∑ k : Fin m.nsoot, (B - b k) * N t k := by rw [hrr]; field_simp
        rw [e] at k2
        have k3 : ∑ k : Fin m.nsoot, (B - b k) * d t k + r * ∑ k : Fin m.nsoot, (B - b k) * N t k ≤ 0 := by linarith
        have := mul_nonpos_of_nonpos_of_nonneg k3 (exp_pos (r * t)).le
        rw [add_mul] at this
        linarith) ⟨le_rfl, ht.1.trans ht.2⟩ ht ht.1
    simp only [mul_zero, exp_zero, mul_one, e] at this
    rw [neg_mul, exp_neg, ← div_eq_mul_inv, le_div_iff₀ (exp_pos _)]
    exact this
  have rp : 0 < β0 * W / (2 * B) := by positivity
  refine ⟨⟨_, rp, fun τ N hN e t ht => (key τ N hN e t ht).2⟩, fun N e hN => ?_⟩
  have ex : Tendsto (fun t => exp (-(β0 * W / (2 * B)) * t)) atTop (𝓝 0) := by
    have : Tendsto (fun t : ℝ => β0 * W / (2 * B) * t) atTop atTop := tendsto_id.const_mul_atTop rp
    simpa only [neg_mul, Function.comp_def] using tendsto_exp_neg_atTop_nhds_zero.comp this
  have ex2 := ex.const_mul (∑ k : Fin m.nsoot, (B - b k) * v k)
  rw [mul_zero] at ex2
  have D : Tendsto (fun t => ∑ k : Fin m.nsoot, (B - b k) * N t k) atTop (𝓝 0) := by
    refine squeeze_zero' (eventually_atTop.2 ⟨0, fun t ht => ?_⟩) (eventually_atTop.2 ⟨0, fun t ht => (key t N (hN t) e t ⟨ht, le_rfl⟩).2⟩) ex2
    exact Finset.sum_nonneg fun k _ => mul_nonneg (sub_nonneg.2 (le k)) ((key t N (hN t) e t ⟨ht, le_rfl⟩).1 k)
  have low : ∀ k : Fin m.nsoot, (k : ℕ) + 1 < m.nsoot → Tendsto (fun t => N t k) atTop (𝓝 0) := fun k hk => by
    have g : 0 < B - b k := sub_pos.2 ((hb k hk).trans_le (mono (k + 1) _ (by omega) (by omega)))
    have D' := D.div_const (B - b k)
    rw [zero_div] at D'
    refine squeeze_zero' (eventually_atTop.2 ⟨0, fun t ht => (key t N (hN t) e t ⟨ht, le_rfl⟩).1 k⟩) (eventually_atTop.2 ⟨0, fun t ht => ?_⟩) D'
    rw [le_div_iff₀ g, mul_comm]
    exact Finset.single_le_sum (f := fun k : Fin m.nsoot => (B - b k) * N t k)
      (fun k _ => mul_nonneg (sub_nonneg.2 (le k)) ((key t N (hN t) e t ⟨ht, le_rfl⟩).1 k)) (Finset.mem_univ k)
  refine ⟨low, fun hgr k hk => ?_⟩
  have S : Tendsto (fun t => ∑ i ∈ Finset.univ.erase k, b i * N t i) atTop (𝓝 0) := by
    have := tendsto_finsetSum (Finset.univ.erase k) (f := fun (i : Fin m.nsoot) t => b i * N t i) (a := fun _ => (0 : ℝ)) (x := atTop) fun i hi => by
      have : (i : ℕ) ≠ k := fun e => (Finset.mem_erase.1 hi).1 (Fin.ext e)
      simpa using (low i (by omega)).const_mul (b i)
    simpa using this
  have := (S.const_sub W).div_const (b k)
  rw [sub_zero] at this
  refine this.congr' (eventually_atTop.2 ⟨0, fun t ht => ?_⟩)
  have cons := (C107_sect_coagulation m _ G _ t N hg (fun t _ => hG t) (h.calls t) hn hgr ho (hN t)).1 t ⟨ht, le_rfl⟩
  rw [e] at cons
  have split := Finset.add_sum_erase Finset.univ (fun i : Fin m.nsoot => b i * N t i) (Finset.mem_univ k)
  rw [div_eq_iff (hp k k.2).ne']
  have cons : ∑ k : Fin m.nsoot, b k * N t k = W := cons
  linarith

/-- The two theorems together, for a full model: four sections, two of them filled, Fuchs' kernel.  All soot ends in the last section. -/
example : ∃ N : ℝ → Fin 4 → ℝ, N 0 = ![1E15, 0, 1E13, 0] ∧
    (∀ τ, SectEvolution (exModel .SECT 4 .NONE .NONE .NONE .FUCHS) (fun _ => State.mk' 4 0) (fun _ => none) (fun _ => exArgs (List.replicate 4 0) false) τ N) ∧
    (∀ k : Fin 4, (k : ℕ) < 3 → Tendsto (fun t => N t k) atTop (𝓝 0)) ∧ ∃ L > 0, Tendsto (fun t => N t 3) atTop (𝓝 L) := by
  have hg := exGeoBins 4 .NONE .NONE .NONE .FUCHS (by norm_num)
  have h := exSectGas 4 .NONE (by simp) (by simp) .NONE .NONE .FUCHS false (by norm_num)
  have h0 : ∀ k : Fin 4, (0 : ℝ) ≤ (![1E15, 0, 1E13, 0] : Fin 4 → ℝ) k := fun k => by fin_cases k <;> norm_num
  obtain ⟨N, e, hN, -⟩ := C115_sect_global (glob := none) h hg (Or.inl rfl) (by simp [exModel, Nucl.new, Grow.new, Oxid.new])
    (by simp [exModel, Nucl.new, Grow.new, Oxid.new]) (by simp [exModel, Nucl.new, Grow.new, Oxid.new]) (by simp [exModel, Nucl.new, Grow.new, Oxid.new]) h0
  have hb0 : mmin < (exModel .SECT 4 .NONE .NONE .NONE .FUCHS).mBins.getD 0 0 := by
    simp only [exModel, if_true]
    rw [binMasses_getD (by norm_num)]
    norm_num [mmin, Na, gasMW]
  obtain ⟨l1, l2⟩ := (C115_sect_last (G := fun _ => none) h hg (fun _ => Or.inl rfl) (by simp [exModel, Nucl.new]) (by simp [exModel, Oxid.new])
    (by simp [exModel, Coag.new]) hb0 h0 ⟨(0 : Fin 4), by norm_num⟩).2 N e hN
  obtain ⟨s0, -, r0⟩ := h fun _ => 0
  have hp : ∀ k < 4, 0 < (exModel .SECT 4 .NONE .NONE .NONE .FUCHS).mBins.getD k 0 := fun k hk => r0.bins.pos hk
  refine ⟨N, e, hN, fun k hk => l1 k (by change (k : ℕ) + 1 < 4; omega), _, ?_, l2 (by simp [exModel, Grow.new]) (3 : Fin 4) rfl⟩
  refine div_pos ?_ (hp 3 (by norm_num))
  exact Finset.sum_pos' (fun i _ => mul_nonneg (hp i i.2).le (h0 i)) ⟨(0 : Fin 4), Finset.mem_univ _, mul_pos (hp 0 (by norm_num)) (by norm_num)⟩

end Soot
