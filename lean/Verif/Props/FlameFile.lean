import Verif.FlameFile
import Verif.Props.BurnerTar
import Verif.Props.BurnerMomic
import Mathlib.Data.List.GetD

/-!
# C86: the profile file of the burner examples
-/

namespace Soot

open Res Real

/-- The values of a row under a header word. -/
def under (label : String) (r : List ℝ) : ℝ := r.getD (fileHeader.idxOf label) 0

namespace File

/-! ## Reading -/

theorem read_some : ∀ (xs : List ℝ) (t : List (Option ℝ)) (d : Option ℝ), ∃ d',
    In.read xs.length ⟨xs.map some ++ t, d, false⟩ = ok (⟨t, d', false⟩, xs)
  | [], t, d => ⟨d, rfl⟩
  | x :: xs, t, d => by
    obtain ⟨d', e⟩ := read_some xs t (some x)
    exact ⟨d', by simp [In.read, In.next, In.value, e]⟩

theorem row_some {r : List ℝ} (h : r.length = 15) (t : List (Option ℝ)) (d : Option ℝ) :
    In.row ⟨r.map some ++ t, d, false⟩ = ok (⟨t, some (r.getD 14 0), false⟩, r.take 13) := by
  have e0 : r.map some ++ t = (r.take 13).map some ++ ((r.drop 13).map some ++ t) := by
    rw [← List.append_assoc, ← List.map_append, List.take_append_drop]
  obtain ⟨d', e⟩ := read_some (r.take 13) ((r.drop 13).map some ++ t) d
  rw [show (r.take 13).length = 13 by simp [h]] at e
  obtain ⟨a, b, hab⟩ := List.length_eq_two.1 (show (r.drop 13).length = 2 by simp [h])
  have hb : r.getD 14 0 = b := by
    have : (r.drop 13)[1]? = some b := by rw [hab]; rfl
    rw [List.getElem?_drop] at this
    rw [List.getD_eq_getElem?_getD, this]; rfl
  rw [e0, In.row, e, hb]
  simp [hab, In.next]

theorem rows_some : ∀ (rs : List (List ℝ)), (∀ r ∈ rs, r.length = 15) → ∀ (t : List (Option ℝ)) (d : Option ℝ), ∃ d',
    In.rows rs.length ⟨fileWords rs ++ t, d, false⟩ = ok (⟨t, d', false⟩, rs.map (·.take 13)) ∧ ∀ q, rs.getLast? = some q → d' = some (q.getD 14 0)
  | [], _, t, d => ⟨d, rfl, by simp⟩
  | r :: rs, h, t, d => by
    have e := row_some (h r (by simp)) (fileWords rs ++ t) d
    obtain ⟨d', e', hd⟩ := rows_some rs (fun q hq => h q (by simp [hq])) t (some (r.getD 14 0))
    have e0 : fileWords (r :: rs) ++ t = r.map some ++ (fileWords rs ++ t) := by simp [fileWords]
    refine ⟨d', ?_, fun q hq => ?_⟩
    · rw [e0, List.length_cons, In.rows, e]
      simp only [ok_bind]
      rw [e']; rfl
    · rcases rs with _ | ⟨r', rs⟩
      · simp only [List.getLast?_singleton, Option.some.injEq] at hq
        subst hq
        simpa [In.rows, fileWords] using e'.symm
      · rw [List.getLast?_cons_cons] at hq
        exact hd q hq

theorem order_lt (c : Col) : cppOrder.idxOf c + 1 < 13 := by cases c <;> decide

theorem take_getD (r : List ℝ) {k : ℕ} (h : k < 13) : (r.take 13).getD k 0 = r.getD k 0 := by
  rw [List.getD_eq_getElem?_getD, List.getD_eq_getElem?_getD, List.getElem?_take, if_pos h]

end File

/-- **C86 (reading).** The C++ programs read the first 35 rows of any file of numbers with 15 columns, whatever follows them, and every profile gets
the column that bears its name in the header. -/
theorem C86_reads (rows : List (List ℝ)) (h : rows.length = 35) (h15 : ∀ r ∈ rows, r.length = 15) (rest : List (Option ℝ)) :
    ∃ p, readProfiles (fileWords rows ++ rest) = ok p ∧ p.z = rows.map (under "z(m)") ∧ ∀ c, p.col c = rows.map (under c.label) := by
  obtain ⟨d', e, _⟩ := File.rows_some rows h15 rest none
  rw [h] at e
  refine ⟨profile cppOrder (rows.map (·.take 13)), by rw [readProfiles, e]; rfl, ?_, fun c => ?_⟩
  · simp only [profile, List.map_map]
    refine List.map_congr_left fun r _ => ?_
    show (r.take 13).getD 0 0 = _
    rw [File.take_getD r (by norm_num)]; rfl
  · simp only [profile, List.map_map]
    refine List.map_congr_left fun r _ => ?_
    show (r.take 13).getD (cppOrder.idxOf c + 1) 0 = _
    rw [File.take_getD r (File.order_lt c), under]
    congr 1
    cases c <;> decide

/-! ## Files that end early -/

namespace File

/-- The stream fails within the next `k` reads. -/
def FailBy (k : ℕ) (s : In) : Prop := s.fail = true ∨ s.words.length < k ∨ ∃ j < k, s.words[j]? = some none

/-- `d` is defined after the next read. -/
def Def (s : In) : Prop := s.d ≠ none ∨ (s.words ≠ [] ∧ s.fail = false)

theorem next_def {s : In} (h : Def s) : ∃ x, s.next.d = some x := by
  rcases s with ⟨w, d, f⟩
  rcases h with h | ⟨h, hf⟩
  · obtain ⟨x, rfl⟩ := Option.ne_none_iff_exists'.1 h
    cases f <;> rcases w with _ | ⟨_ | y, t⟩ <;> simp [In.next]
  · simp only at h hf
    subst hf
    rcases w with _ | ⟨_ | y, t⟩ <;> simp [In.next] at h ⊢

theorem next_fail {s : In} (h : s.fail = true) : s.next = s := by simp [In.next, h]

theorem failBy_next {k : ℕ} {s : In} (h : FailBy (k + 1) s) : FailBy k s.next := by
  rcases s with ⟨w, d, f⟩
  cases f
  · rcases w with _ | ⟨_ | y, t⟩
    · exact .inl rfl
    · exact .inl rfl
    · rcases h with h | h | ⟨j, hj, h⟩
      · exact absurd h (by simp)
      · exact .inr (.inl (by simpa [In.next] using h))
      · rcases j with _ | j
        · simp at h
        · exact .inr (.inr ⟨j, by omega, by simpa [In.next] using h⟩)
  · exact .inl rfl

theorem failBy_zero {s : In} (h : FailBy 0 s) : s.fail = true := by
  rcases h with h | h | ⟨j, hj, _⟩
  · exact h
  · omega
  · omega

theorem read_def : ∀ (n : ℕ) {k : ℕ} {s : In}, Def s → FailBy (k + n) s → ∃ s' xs, In.read n s = ok (s', xs) ∧ xs.length = n ∧ FailBy k s' ∧ Def s' := by
  intro n
  induction n with
  | zero => exact fun {k s} h hf => ⟨s, [], rfl, rfl, hf, h⟩
  | succ n ih =>
    intro k s h hf
    obtain ⟨x, hx⟩ := next_def h
    obtain ⟨s', xs, e, e1, e2, e3⟩ := ih (s := s.next) (.inl (by simp [hx])) (failBy_next (k := k + n) hf)
    exact ⟨s', x :: xs, by simp [In.read, In.value, hx, e], by simp [e1], e2, e3⟩

theorem row_def {k : ℕ} {s : In} (h : Def s) (hf : FailBy (k + 15) s) : ∃ s' r, s.row = ok (s', r) ∧ r.length = 13 ∧ FailBy k s' ∧ Def s' := by
  obtain ⟨s', xs, e, e1, e2, e3⟩ := read_def 13 (k := k + 2) h (by rw [show k + 2 + 13 = k + 15 by omega]; exact hf)
  obtain ⟨y, d1⟩ := next_def e3
  obtain ⟨z, d2⟩ := next_def (s := s'.next) (.inl (by rw [d1]; simp))
  exact ⟨s'.next.next, xs, by rw [In.row, e]; rfl, e1, failBy_next (failBy_next e2), .inl (by rw [d2]; simp)⟩

theorem rows_def : ∀ (n : ℕ) {k : ℕ} {s : In}, Def s → FailBy (k + 15 * n) s → ∃ s' rs, In.rows n s = ok (s', rs) ∧ rs.length = n ∧ FailBy k s' ∧ Def s' := by
  intro n
  induction n with
  | zero => exact fun {k s} h hf => ⟨s, [], rfl, rfl, hf, h⟩
  | succ n ih =>
    intro k s h hf
    obtain ⟨s1, r, e, _, e2, e3⟩ := row_def (k := k + 15 * n) h (by rw [show k + 15 * n + 15 = k + 15 * (n + 1) by ring]; exact hf)
    obtain ⟨s', rs, f, f1, f2, f3⟩ := ih e3 e2
    exact ⟨s', r :: rs, by rw [In.rows, e, ok_bind]; simp only [f, ok_bind], by simp [f1], f2, f3⟩

theorem rows_add (a b : ℕ) (s : In) : In.rows (a + b) s = (In.rows a s >>= fun r => In.rows b r.1 >>= fun q => ok (q.1, r.2 ++ q.2)) := by
  induction a generalizing s with
  | zero => rw [Nat.zero_add]; simp only [In.rows, ok_bind, List.nil_append]; cases In.rows b s <;> rfl
  | succ a ih =>
    rw [show a + 1 + b = (a + b) + 1 by omega, In.rows, In.rows]
    cases hr : s.row with
    | ok q =>
      simp only [ok_bind, ih]
      cases In.rows a q.1 with
      | ok v => simp only [ok_bind]; cases In.rows b v.1 <;> rfl
      | _ => rfl
    | _ => rfl

/-- Once the stream has failed every value is the same. -/
theorem read_const {x : ℝ} {w : List (Option ℝ)} : ∀ n, In.read n ⟨w, some x, true⟩ = ok (⟨w, some x, true⟩, List.replicate n x)
  | 0 => rfl
  | n + 1 => by
    rw [In.read, next_fail rfl]
    simp [In.value, read_const n, List.replicate_succ]

theorem last_two {s : In} (h : Def s) (hf : FailBy 1 s) : ∃ s' x, In.rows 2 s = ok (s', [List.replicate 13 x, List.replicate 13 x]) := by
  obtain ⟨x, hx⟩ := next_def h
  have hb := failBy_zero (failBy_next hf)
  obtain ⟨w, hw⟩ : ∃ w, s.next = ⟨w, some x, true⟩ := ⟨s.next.words, by rw [← hx, ← hb]⟩
  have hr : s.row = ok (⟨w, some x, true⟩, List.replicate 13 x) := by
    rw [In.row, In.read, hw]
    simp only [In.value, ok_bind, read_const]
    rw [next_fail rfl, next_fail rfl]; rfl
  have hr2 : In.row ⟨w, some x, true⟩ = ok (⟨w, some x, true⟩, List.replicate 13 x) := by
    rw [In.row, read_const, ok_bind]
    show ok ((In.next (In.next ⟨w, some x, true⟩)), List.replicate 13 x) = _
    rw [next_fail (s := ⟨w, some x, true⟩) rfl, next_fail (s := ⟨w, some x, true⟩) rfl]
  exact ⟨_, x, by simp only [In.rows, hr, ok_bind, hr2]; rfl⟩

/-- A position that is not between its neighbours is noticed. -/
theorem turn_none {X : List ℝ} {j : ℕ} (hj : X.getD j 0 = X.getD (j - 1) 0 ∨ X.getD j 0 = X.getD (j + 1) 0 ∨
      (X.getD j 0 < X.getD (j - 1) 0 ∧ X.getD j 0 < X.getD (j + 1) 0) ∨ (X.getD j 0 > X.getD (j - 1) 0 ∧ X.getD j 0 > X.getD (j + 1) 0)) :
    ∀ n i, 1 ≤ i → i + n + 1 = X.length → i ≤ j → j < i + n → turnLoop X n i = ok none
  | 0, _, _, _, h, _ => by omega
  | n + 1, i, hi, hl, h1, h2 => by
    have i0 : ∀ k, k < X.length → idx X k = ok (X.getD k 0) := fun k hk => by rw [idx_ok hk, getD_of_lt]
    simp only [turnLoop, turnAt, i0 (i - 1) (by omega), i0 i (by omega), i0 (i + 1) (by omega), ok_bind]
    split_ifs with ht
    · rfl
    · rcases Nat.eq_or_lt_of_le h1 with rfl | h1
      · exact absurd hj ht
      · exact turn_none hj n (i + 1) (by omega) (by omega) h1 (by omega)

end File

/-- **C86 (incomplete files).** A file with at least one word that ends after at most 33 rows, or has something that is not a number there, is refused
by the table check: every one of the programs exits before it computes anything. -/
theorem C86_incomplete_exits (eig : Eig) (words : List (Option ℝ)) (h0 : words ≠ []) (h : words.length ≤ 33 * 15 ∨ ∃ k ≤ 33 * 15, words[k]? = some none)
    (psd : PsdMech) (nsoot : ℕ) (n : NuclMech) (g : GrowMech) (o : OxidMech) (c : CoagMech) (N : ℕ) :
    burnFile eig words psd nsoot n g o c N = ok none ∧ tarFile eig words n g o c N = ok none := by
  have hf : File.FailBy (1 + 15 * 33) ⟨words, none, false⟩ := by
    rcases h with h | ⟨k, hk, h⟩
    · exact .inr (.inl (by show words.length < _; omega))
    · exact .inr (.inr ⟨k, by omega, h⟩)
  obtain ⟨s1, rs, e, e1, e2, e3⟩ := File.rows_def 33 (k := 1) (s := ⟨words, none, false⟩) (.inr ⟨h0, rfl⟩) hf
  obtain ⟨s2, x, f⟩ := File.last_two e3 e2
  have hr : readProfiles words = ok (profile cppOrder (rs ++ [List.replicate 13 x, List.replicate 13 x])) := by
    rw [readProfiles, show 35 = 33 + 2 from rfl, File.rows_add, e, ok_bind, f]; rfl
  have ht : ∀ l c, (profile cppOrder (rs ++ [List.replicate 13 x, List.replicate 13 x])).tables (c :: l) = ok none := by
    intro l c
    have hz : turnLoop (profile cppOrder (rs ++ [List.replicate 13 x, List.replicate 13 x])).z 33 1 = ok none := by
      refine File.turn_none (j := 33) (.inr (.inl ?_)) 33 1 le_rfl (by simp [profile, e1]) (by norm_num) (by norm_num)
      simp only [profile, List.map_append]
      rw [List.getD_append_right _ _ _ _ (by simp [e1]), List.getD_append_right _ _ _ _ (by simp [e1])]
      simp [e1]
    rw [Profiles.tables, Profiles.table, Interp.new, if_neg (by simp [profile])]
    rw [show (profile cppOrder (rs ++ [List.replicate 13 x, List.replicate 13 x])).z.length - 2 = 33 by simp [profile, e1], hz]
    rfl
  constructor
  · rw [burnFile, hr, ok_bind, burnMain, Col.all, ht]; rfl
  · rw [tarFile, hr, ok_bind, tarMain, Col.all, ht]; rfl

/-- **C86 (an empty file).** A file with nothing after the first line (or no file at all): the program reads a variable that was never assigned. -/
theorem C86_empty_ub (eig : Eig) (psd : PsdMech) (nsoot : ℕ) (n : NuclMech) (g : GrowMech) (o : OxidMech) (c : CoagMech) (N : ℕ) :
    burnFile eig [] psd nsoot n g o c N = ub ∧ tarFile eig [] n g o c N = ub := ⟨rfl, rfl⟩

/-! ## The shipped file -/

namespace File

theorem z_rat : (fileRows.map (·.getD 0 0)).Pairwise (· < ·) := by decide +kernel

theorem shape_rat : fileRows.length = 35 ∧ ∀ r ∈ fileRows, r.length = 15 := by decide +kernel

theorem pos_rat : ∀ c ∈ [Col.v, .T, .rho, .mu, .yC2H2], ∀ r ∈ fileRows, 0 < r.getD (fileHeader.idxOf c.label) 0 := by decide +kernel

theorem frac_rat : ∀ c ∈ gasFull, ∀ r ∈ fileRows, 0 ≤ r.getD (fileHeader.idxOf c.label) 0 ∧ r.getD (fileHeader.idxOf c.label) 0 ≤ 1 := by decide +kernel

theorem h_rat : ∀ r ∈ fileRows, r.getD 8 0 ≤ 1e-5 ∧ 1e-5 < r.getD 5 0 := by decide +kernel

theorem temp_rat : ∀ r ∈ fileRows, r.getD 2 0 ≤ 1644 := by decide +kernel

theorem flux_rat : ∀ r ∈ fileRows, 0.0783 ≤ r.getD 3 0 * r.getD 1 0 ∧ r.getD 3 0 * r.getD 1 0 ≤ 0.0787 := by decide +kernel

theorem sum_rat : ∀ r ∈ fileRows, ((r.drop 5).take 8).sum ≤ 0.285 := by decide +kernel

theorem cast_getD (r : List ℚ) (k : ℕ) : (r.map fun q : ℚ => (q : ℝ)).getD k 0 = ((r.getD k 0 : ℚ) : ℝ) := by
  rw [List.getD_eq_getElem?_getD, List.getD_eq_getElem?_getD, List.getElem?_map]
  cases r[k]? <;> simp

theorem col_mem {l : String} {y : ℝ} (h : y ∈ fileReal.map (under l)) : ∃ r ∈ fileRows, y = ((r.getD (fileHeader.idxOf l) 0 : ℚ) : ℝ) := by
  simp only [fileReal, List.map_map, List.mem_map] at h
  obtain ⟨r, hr, rfl⟩ := h
  exact ⟨r, hr, cast_getD r _⟩

theorem shape : fileReal.length = 35 ∧ ∀ r ∈ fileReal, r.length = 15 := by
  refine ⟨by rw [fileReal, List.length_map, shape_rat.1], fun r hr => ?_⟩
  simp only [fileReal, List.mem_map] at hr
  obtain ⟨q, hq, rfl⟩ := hr
  rw [List.length_map, shape_rat.2 q hq]

theorem z_eq : fileReal.map (under "z(m)") = (fileRows.map (·.getD 0 0)).map fun q : ℚ => (q : ℝ) := by
  simp only [fileReal, List.map_map]
  exact List.map_congr_left fun r _ => cast_getD r 0

end File

/-- **C86 (the shipped file).** The file in the repository is read completely, and what is read is a physical flame from 0 to 3 cm: increasing
positions, positive velocity, temperature, density, viscosity and acetylene, at most 1644 K, mass fractions in [0, 1], and more O2 than H
everywhere. -/
theorem C86_shipped_flame : ∃ p, readProfiles (fileWords fileReal) = ok p ∧ Flame p ∧ p.z.length = 35 ∧ p.z.getD 0 0 = 0 ∧ p.z.getD 34 0 = 0.03 ∧
    (∀ y ∈ p.col .yC2H2, 0 < y) ∧ (∀ y ∈ p.col .yH, y ≤ 1e-5) ∧ (∀ y ∈ p.col .yO2, 1e-5 < y) ∧ ∀ y ∈ p.col .T, y ≤ 1644 := by
  obtain ⟨p, e, ez, ec⟩ := C86_reads fileReal File.shape.1 File.shape.2 []
  rw [List.append_nil] at e
  have hl : p.z.length = 35 := by rw [ez, List.length_map, File.shape.1]
  have hz : ∀ k, p.z.getD k 0 = (((fileRows.map (·.getD 0 0)).getD k 0 : ℚ) : ℝ) := fun k => by rw [ez, File.z_eq, File.cast_getD]
  refine ⟨p, e, ⟨?_, by omega, fun c => ?_, fun c hc y hy => ?_, fun c hc y hy => ?_⟩, hl, ?_, ?_, fun y hy => ?_, fun y hy => ?_, fun y hy => ?_,
    fun y hy => ?_⟩
  · intro i j hij hj
    rw [hz, hz, Rat.cast_lt]
    have hj' : j < (fileRows.map (·.getD 0 0)).length := by rw [List.length_map, File.shape_rat.1]; omega
    rw [List.getD_eq_getElem _ _ hj', List.getD_eq_getElem _ _ (hij.trans hj')]
    exact List.pairwise_iff_getElem.1 File.z_rat i j (hij.trans hj') hj' hij
  · rw [ec, ez, List.length_map, List.length_map]
  · rw [ec] at hy
    obtain ⟨r, hr, rfl⟩ := File.col_mem hy
    refine Rat.cast_pos.2 (File.pos_rat c ?_ r hr)
    simp only [List.mem_cons, List.not_mem_nil, or_false] at hc ⊢
    tauto
  · rw [ec] at hy
    obtain ⟨r, hr, rfl⟩ := File.col_mem hy
    have := File.frac_rat c hc r hr
    exact ⟨by exact_mod_cast this.1, by exact_mod_cast this.2⟩
  · rw [hz, show (fileRows.map (·.getD 0 0)).getD 0 0 = (0 : ℚ) by decide +kernel]; simp
  · rw [hz, show (fileRows.map (·.getD 0 0)).getD 34 0 = (0.03 : ℚ) by decide +kernel]; norm_num
  · rw [ec] at hy
    obtain ⟨r, hr, rfl⟩ := File.col_mem hy
    exact Rat.cast_pos.2 (File.pos_rat .yC2H2 (by simp) r hr)
  · rw [ec] at hy
    obtain ⟨r, hr, rfl⟩ := File.col_mem hy
    have := (Rat.cast_le (K := ℝ)).2 (File.h_rat r hr).1
    rw [show fileHeader.idxOf Col.yH.label = 8 by decide]
    refine this.trans (le_of_eq ?_); norm_num
  · rw [ec] at hy
    obtain ⟨r, hr, rfl⟩ := File.col_mem hy
    have := (Rat.cast_lt (K := ℝ)).2 (File.h_rat r hr).2
    rw [show fileHeader.idxOf Col.yO2.label = 5 by decide]
    refine lt_of_eq_of_lt ?_ this; norm_num
  · rw [ec] at hy
    obtain ⟨r, hr, rfl⟩ := File.col_mem hy
    have := (Rat.cast_le (K := ℝ)).2 (File.temp_rat r hr)
    rw [show fileHeader.idxOf Col.T.label = 2 by decide]
    refine this.trans (le_of_eq ?_); norm_num

/-- **C86 (the shipped file is consistent).** In every row the mass flux `rho v` is that of the others within half a percent, and the listed mass
fractions add up to less than 0.285. -/
theorem C86_shipped_flux : ∀ r ∈ fileReal, 0.0783 ≤ under "rho(kg/m3)" r * under "v(m/s)" r ∧ under "rho(kg/m3)" r * under "v(m/s)" r ≤ 0.0787 ∧
    ((gasFull.map fun c => under c.label r).sum ≤ 0.285) := by
  intro r hr
  simp only [fileReal, List.mem_map] at hr
  obtain ⟨q, hq, rfl⟩ := hr
  have h1 := File.flux_rat q hq
  have h2 := File.sum_rat q hq
  have hl := File.shape_rat.2 q hq
  have e : ∀ l, under l (q.map fun x : ℚ => (x : ℝ)) = ((q.getD (fileHeader.idxOf l) 0 : ℚ) : ℝ) := fun l => File.cast_getD q _
  have f1 := (Rat.cast_le (K := ℝ)).2 h1.1
  have f2 := (Rat.cast_le (K := ℝ)).2 h1.2
  have f3 := (Rat.cast_le (K := ℝ)).2 h2
  rw [e, e, show fileHeader.idxOf "rho(kg/m3)" = 3 by decide, show fileHeader.idxOf "v(m/s)" = 1 by decide]
  refine ⟨?_, ?_, ?_⟩
  · push_cast at f1; exact f1
  · push_cast at f2; exact f2
  · have : (gasFull.map fun c => under c.label (q.map fun x : ℚ => (x : ℝ))).sum = ((((q.drop 5).take 8).sum : ℚ) : ℝ) := by
      simp only [e, gasFull, List.map_cons, List.map_nil, Col.label]
      rw [show fileHeader.idxOf "y_O2" = 5 by decide, show fileHeader.idxOf "y_O" = 6 by decide, show fileHeader.idxOf "y_H2" = 7 by decide,
        show fileHeader.idxOf "y_H" = 8 by decide, show fileHeader.idxOf "y_OH" = 9 by decide, show fileHeader.idxOf "y_H2O" = 10 by decide,
        show fileHeader.idxOf "y_CO" = 11 by decide, show fileHeader.idxOf "y_C2H2" = 12 by decide]
      match q, hl with
      | [a0, a1, a2, a3, a4, a5, a6, a7, a8, a9, a10, a11, a12, a13, a14], _ => simp
    rw [this]; push_cast at f3 ⊢; exact f3

/-- **C86 (the shipped program).** `burner_flame.cc` finishes on the shipped file, at 3 cm and with one value per soot variable, in every configuration
that C74 allows in some flame, HACA included, and for every number of steps. -/
theorem C86_shipped_runs (eig : Eig) (psd : PsdMech) (nsoot : ℕ) (n : NuclMech) (g : GrowMech) (o : OxidMech) (c : CoagMech)
    {p₀ : Profiles} (h : BurnCfg p₀ psd nsoot n g o c) (N : ℕ) (hN : 1 ≤ N) :
    ∃ b, burnFile eig (fileWords fileReal) psd nsoot n g o c N = ok (some b) ∧ b.z = 0.03 ∧ b.Mhat.length = nsoot := by
  obtain ⟨p, e, hp, hl, _, hz, _, _, _, hT⟩ := C86_shipped_flame
  have h' : BurnCfg p psd nsoot n g o c := { h with cool := fun _ T hm => (hT T hm).trans_lt (by norm_num) }
  obtain ⟨b, e1, e2, e3⟩ := C74_burner_completes eig p hp psd nsoot n g o c h' N hN
  exact ⟨b, by rw [burnFile, e, ok_bind, e1], by rw [e2, hl, hz], e3⟩

/-- The program as it stands in the repository. -/
example (eig : Eig) : ∃ b, burnFile eig (fileWords fileReal) .QMOM 6 .LL .LL .LL .HM 20000 = ok (some b) ∧ b.z = 0.03 ∧ b.Mhat.length = 6 :=
  C86_shipped_runs eig .QMOM 6 .LL .LL .LL .HM (p₀ := exFlame) ⟨⟨by simp, by simp⟩, .qmom 3 (by norm_num) _, by simp, by simp, by simp, by simp⟩ 20000 (by norm_num)

/-- The same with HACA growth and oxidation and a section model. -/
example (eig : Eig) : ∃ b, burnFile eig (fileWords fileReal) .SECT 40 .LL .HACA .HACA .FUCHS 20000 = ok (some b) ∧ b.z = 0.03 ∧ b.Mhat.length = 40 :=
  C86_shipped_runs eig .SECT 40 .LL .HACA .HACA .FUCHS (p₀ := exFlame) ⟨⟨by simp, by norm_num [exFlame]⟩, .sect 40 (by norm_num) _, by simp, by simp, by simp, by simp⟩
    20000 (by norm_num)

/-- **C86 (the variants on the shipped file).** `burner_flame_HMOM.cc` is undefined on the shipped file and `burner_flame_tar.cc` never finishes a
step; with two moments and one step `burner_flame.cc` ends with more soot mass than the midpoint method it announces (C75). -/
theorem C86_shipped_variants_false (eig : Eig) (N : ℕ) (hN : 1 ≤ N) (c : CoagMech) :
    burnFile eig (fileWords fileReal) .HMOM 8 .LL .LL .LL .HM N = ub ∧
    (∀ b, tarFile eig (fileWords fileReal) .AJ_RED .HACA .AJ_RED .FM N ≠ ok (some b)) ∧
    ∃ p b M, readProfiles (fileWords fileReal) = ok p ∧ burnFile eig (fileWords fileReal) .QMOM 2 .LL .LL .LL c 1 = ok (some b) ∧ M 0 = [0, 0] ∧
      Midpoint (slope eig p .QMOM 2 .LL .LL .LL c gasFull) (p.z.getD 0 0) (p.z.getD (p.z.length - 1) 0 - p.z.getD 0 0) 1 M ∧
      (M 1).getD 1 0 < b.Mhat.getD 1 0 := by
  obtain ⟨p, e, hp, _, _, _, h1, h2, h3, _⟩ := C86_shipped_flame
  refine ⟨?_, fun b => ?_, ?_⟩
  · rw [burnFile, e, ok_bind]
    exact C76_hmom_ub eig p hp 8 .LL .LL .LL .HM ⟨by simp, by simp⟩ (.hmom 7 (by norm_num) (by norm_num) _ (by simp)) (by simp) N hN
  · rw [tarFile, e, ok_bind]
    exact C76_tar_false eig p _ _ _ _ N hN b
  · obtain ⟨b, e1, ⟨M, m0, m1⟩, e2⟩ := C75_midpoint_false eig p hp h1 1e-5 h2 h3 c
    exact ⟨p, b, M, e, by rw [burnFile, e, ok_bind, e1], m0, m1, e2 M m0 m1⟩

/-- **C86 (MOMIC on the shipped file).** With MOMIC the program finishes on the shipped file when coagulation is continuum or there is no oxidation. -/
theorem C86_shipped_momic_partial (eig : Eig) (nsoot : ℕ) (n : NuclMech) (g : GrowMech) (o : OxidMech) (c : CoagMech)
    {p₀ : Profiles} (h : MomicCfg p₀ nsoot n g o c) (hc : c = .CONTINUUM ∨ o = .NONE) (N : ℕ) (hN : 1 ≤ N) :
    ∃ b, burnFile eig (fileWords fileReal) .MOMIC nsoot n g o c N = ok (some b) ∧ b.z = 0.03 ∧ b.Mhat.length = nsoot := by
  obtain ⟨p, e, hp, hl, _, hz, _, _, _, hT⟩ := C86_shipped_flame
  have h' : MomicCfg p nsoot n g o c := { h with cool := fun _ T hm => (hT T hm).trans_lt (by norm_num) }
  obtain ⟨b, e1, e2, e3, _⟩ := C80_momic_burner_partial eig p hp nsoot n g o c h' hc N hN
  exact ⟨b, by rw [burnFile, e, ok_bind, e1], by rw [e2, hl, hz], e3⟩

/-- The shipped file cut after thirty rows is refused. -/
example (eig : Eig) : burnFile eig (fileWords (fileReal.take 30)) .QMOM 6 .LL .LL .LL .HM 20000 = ok none := by
  have hl : (fileWords (fileReal.take 30)).length = 450 := by
    have e : (fileReal.take 30).map List.length = (fileRows.take 30).map List.length := by
      rw [fileReal, ← List.map_take, List.map_map]
      exact List.map_congr_left fun r _ => List.length_map ..
    rw [fileWords, List.length_map, List.length_flatten, e]
    decide +kernel
  exact (C86_incomplete_exits eig _ (fun h => by rw [h] at hl; simp at hl) (.inl (by omega)) .QMOM 6 .LL .LL .LL .HM 20000).1

/-! ## One row too few -/

/-- **C86 (one row too few), refutation.** A file with 34 rows is not always refused: the missing row is filled with the last number of the file. If
that number, a soot mass, is larger than the last position and at most 1, it is taken for position, velocity, temperature, density, viscosity and all
mass fractions, and the program runs on to that position. -/
theorem C86_short_false (rows : List (List ℝ)) (h : rows.length = 34) (h15 : ∀ r ∈ rows, r.length = 15)
    (hf : Flame ⟨rows.map (under "z(m)"), fun c => rows.map (under c.label)⟩) (x : ℝ) (hx : under "M1(kg/m3)" (rows.getD 33 []) = x)
    (h0 : 0 < x) (h1 : x ≤ 1) (hz : under "z(m)" (rows.getD 33 []) < x)
    (eig : Eig) (psd : PsdMech) (nsoot : ℕ) (n : NuclMech) (g : GrowMech) (o : OxidMech) (c : CoagMech)
    (hc : BurnCfg ⟨rows.map (under "z(m)"), fun c => rows.map (under c.label)⟩ psd nsoot n g o c) (N : ℕ) (hN : 1 ≤ N) :
    ∃ p b, readProfiles (fileWords rows) = ok p ∧ p.z = rows.map (under "z(m)") ++ [x] ∧ (∀ c, p.col c = rows.map (under c.label) ++ [x]) ∧
      burnFile eig (fileWords rows) psd nsoot n g o c N = ok (some b) ∧ b.z = x := by
  obtain ⟨d', e, hd⟩ := File.rows_some rows h15 [] none
  rw [h, List.append_nil] at e
  have hlast : rows.getLast? = some (rows.getD 33 []) := by
    rw [List.getLast?_eq_getElem?, h, List.getElem?_eq_getElem (by omega), List.getD_eq_getElem _ _ (by omega)]
  have hdx : d' = some x := by rw [hd _ hlast, ← hx, under, show fileHeader.idxOf "M1(kg/m3)" = 14 by decide]
  subst hdx
  have hrow : In.row ⟨[], some x, false⟩ = ok (⟨[], some x, true⟩, List.replicate 13 x) := by
    rw [In.row, In.read, show In.next ⟨[], some x, false⟩ = ⟨[], some x, true⟩ from rfl]
    simp only [In.value, ok_bind, File.read_const]
    rw [File.next_fail rfl, File.next_fail rfl]; rfl
  have hr : readProfiles (fileWords rows) = ok (profile cppOrder (rows.map (·.take 13) ++ [List.replicate 13 x])) := by
    rw [readProfiles, show 35 = 34 + 1 from rfl, File.rows_add, e, ok_bind, In.rows, hrow]; rfl
  have ez : (profile cppOrder (rows.map (·.take 13) ++ [List.replicate 13 x])).z = rows.map (under "z(m)") ++ [x] := by
    simp only [profile, List.map_append, List.map_map]
    refine congrArg₂ _ (List.map_congr_left fun r _ => ?_) rfl
    show (r.take 13).getD 0 0 = _
    rw [File.take_getD r (by norm_num)]; rfl
  have ec : ∀ c, (profile cppOrder (rows.map (·.take 13) ++ [List.replicate 13 x])).col c = rows.map (under c.label) ++ [x] := by
    intro c
    simp only [profile, List.map_append, List.map_map]
    refine congrArg₂ _ (List.map_congr_left fun r _ => ?_) (by cases c <;> rfl)
    show (r.take 13).getD (cppOrder.idxOf c + 1) 0 = _
    rw [File.take_getD r (File.order_lt c), under]
    congr 1
    cases c <;> decide
  generalize profile cppOrder (rows.map (·.take 13) ++ [List.replicate 13 x]) = p at hr ez ec
  have hl : p.z.length = 35 := by rw [ez]; simp [h]
  have h33 : (rows.map (under "z(m)")).getD 33 0 = under "z(m)" (rows.getD 33 []) := by
    rw [List.getD_eq_getElem _ _ (by simp [h]), List.getD_eq_getElem _ _ (by omega), List.getElem_map]
  have hx34 : p.z.getD 34 0 = x := by rw [ez, List.getD_append_right _ _ _ _ (by simp [h])]; simp [h]
  have hlow : ∀ i, i < 34 → p.z.getD i 0 = (rows.map (under "z(m)")).getD i 0 := fun i hi => by rw [ez, List.getD_append _ _ _ _ (by simpa [h] using hi)]
  have hp : Flame p := by
    refine ⟨?_, by omega, fun c => by rw [ec, ez]; simp, fun c hc y hy => ?_, fun c hc y hy => ?_⟩
    · intro i j hij hj
      rw [hl] at hj
      rcases Nat.lt_or_ge j 34 with hj' | hj'
      · rw [hlow i (by omega), hlow j hj']
        exact hf.incr i j hij (by simpa [h] using hj')
      · obtain rfl : j = 34 := by omega
        rw [hx34, hlow i hij]
        refine lt_of_le_of_lt ?_ (h33 ▸ hz)
        rcases Nat.eq_or_lt_of_le (Nat.lt_succ_iff.1 hij) with rfl | hi
        · exact le_rfl
        · exact (hf.incr i 33 hi (by simp [h])).le
    · rw [ec, List.mem_append, List.mem_singleton] at hy
      rcases hy with hy | rfl
      · exact hf.pos c hc y hy
      · exact h0
    · rw [ec, List.mem_append, List.mem_singleton] at hy
      rcases hy with hy | rfl
      · exact hf.frac c hc y hy
      · exact ⟨h0.le, h1⟩
  have hc' : BurnCfg p psd nsoot n g o c := { hc with
    cool := fun hH T hT => by
      rw [ec, List.mem_append] at hT
      rcases hT with hT | hT
      · exact hc.cool hH T hT
      · rw [List.mem_singleton.1 hT]
        exact h1.trans_lt (by norm_num) }
  obtain ⟨b, e1, e2, _⟩ := C74_burner_completes eig p hp psd nsoot n g o c hc' N hN
  exact ⟨p, b, hr, ez, ec, by rw [burnFile, hr, ok_bind, e1], by rw [e2, hl, hx34]⟩

/-- Such a file: 34 rows a centimetre apart, with a soot mass of 1 in the last column. -/
example : ∃ rows : List (List ℝ), rows.length = 34 ∧ (∀ r ∈ rows, r.length = 15) ∧ Flame ⟨rows.map (under "z(m)"), fun c => rows.map (under c.label)⟩ ∧
    under "M1(kg/m3)" (rows.getD 33 []) = 1 ∧ under "z(m)" (rows.getD 33 []) = 0.33 := by
  have hu : ∀ (l : String) (k : ℕ), fileHeader.idxOf l = k → ∀ r, under l r = r.getD k 0 := fun l k h r => by rw [under, h]
  refine ⟨(List.range 34).map fun i : ℕ => [(i : ℝ) / 100, 1, 1500, 0.2, 5e-5, 0.05, 0.05, 0.05, 0.05, 0.05, 0.05, 0.05, 0.05, 1e15, 1], by simp,
    fun r hr => ?_, ⟨fun i j hij hj => ?_, by simp, fun c => by simp, fun c hc y hy => ?_, fun c hc y hy => ?_⟩, ?_, ?_⟩
  · simp only [List.mem_map] at hr
    obtain ⟨i, _, rfl⟩ := hr
    rfl
  · simp only [List.map_map, List.length_map, List.length_range] at hj ⊢
    rw [List.getD_eq_getElem _ _ (by simp; omega), List.getD_eq_getElem _ _ (by simp; omega)]
    simp only [List.getElem_map, List.getElem_range, Function.comp_apply, hu "z(m)" 0 (by decide), List.getD_cons_zero]
    have : (i : ℝ) < j := by exact_mod_cast hij
    linarith
  · simp only [List.map_map, List.mem_map] at hy
    obtain ⟨i, _, rfl⟩ := hy
    simp only [List.mem_cons, List.not_mem_nil, or_false] at hc
    rcases hc with rfl | rfl | rfl | rfl
    · rw [Function.comp_apply, hu _ 1 (by decide)]; norm_num
    · rw [Function.comp_apply, hu _ 2 (by decide)]; norm_num
    · rw [Function.comp_apply, hu _ 3 (by decide)]; norm_num
    · rw [Function.comp_apply, hu _ 4 (by decide)]; norm_num
  · simp only [List.map_map, List.mem_map] at hy
    obtain ⟨i, _, rfl⟩ := hy
    simp only [gasFull, List.mem_cons, List.not_mem_nil, or_false] at hc
    rcases hc with rfl | rfl | rfl | rfl | rfl | rfl | rfl | rfl
    · rw [Function.comp_apply, hu _ 5 (by decide)]; norm_num
    · rw [Function.comp_apply, hu _ 6 (by decide)]; norm_num
    · rw [Function.comp_apply, hu _ 7 (by decide)]; norm_num
    · rw [Function.comp_apply, hu _ 8 (by decide)]; norm_num
    · rw [Function.comp_apply, hu _ 9 (by decide)]; norm_num
    · rw [Function.comp_apply, hu _ 10 (by decide)]; norm_num
    · rw [Function.comp_apply, hu _ 11 (by decide)]; norm_num
    · rw [Function.comp_apply, hu _ 12 (by decide)]; norm_num
  · rw [hu _ 14 (by decide), List.getD_eq_getElem _ _ (by simp)]; simp
  · rw [hu _ 0 (by decide), List.getD_eq_getElem _ _ (by simp)]; simp; norm_num

/-! ## The Fortran program -/

namespace File

theorem fort_some : ∀ (rs : List (List ℝ)), (∀ r ∈ rs, 13 ≤ r.length) → ∀ rest, fortRows rs.length (rs ++ rest) = some (rs.map (·.take 13))
  | [], _, _ => rfl
  | r :: rs, h, rest => by
    simp only [List.length_cons, List.cons_append, fortRows, fortRecord, if_pos (h r (by simp)), Option.bind_eq_bind, Option.bind_some,
      fort_some rs (fun q hq => h q (by simp [hq])) rest, List.map_cons]

end File

/-- **C86 (the Fortran program).** For every file with 35 rows of at least thirteen numbers, whatever follows, the program prints the columns labelled
`z(m)` and `y_C2H2`. -/
theorem C86_fort_prints (rows : List (List ℝ)) (h : rows.length = 35) (h13 : ∀ r ∈ rows, 13 ≤ r.length) (rest : List (List ℝ)) :
    fortPrints (rows ++ rest) = some (rows.map fun r => (under "z(m)" r, under "y_C2H2" r)) := by
  have e := File.fort_some rows h13 rest
  rw [h] at e
  simp only [fortPrints, fortProfiles, e, Option.map_some, profile, List.map_map, Option.some.injEq]
  rw [List.zip_map']
  refine List.map_congr_left fun r _ => ?_
  show ((r.take 13).getD 0 0, (r.take 13).getD 12 0) = _
  rw [File.take_getD r (by norm_num), File.take_getD r (by norm_num)]
  rfl

/-- **C86 (a short Fortran file).** With fewer than 35 rows the program stops at the end of the file. -/
theorem C86_fort_short (recs : List (List ℝ)) (h : recs.length < 35) : fortPrints recs = none := by
  have h1 : ∀ (rs : List (List ℝ)) n x rest, fortRecord n rs = some (x, rest) → rest.length < rs.length := by
    intro rs
    induction rs with
    | nil => intro n x rest e; simp [fortRecord] at e
    | cons r rs ih =>
      intro n x rest e
      rw [fortRecord] at e
      split_ifs at e
      · simp only [Option.some.injEq, Prod.mk.injEq] at e
        rw [← e.2]; simp
      · cases hq : fortRecord (n - r.length) rs with
        | none => simp [hq] at e
        | some q =>
          simp only [hq, Option.bind_eq_bind, Option.bind_some, Option.some.injEq, Prod.mk.injEq] at e
          have := ih _ q.1 q.2 hq
          rw [← e.2, List.length_cons]; omega
  have h2 : ∀ n (rs : List (List ℝ)), rs.length < n → fortRows n rs = none := by
    intro n
    induction n with
    | zero => intro rs h; omega
    | succ n ih =>
      intro rs h
      rw [fortRows]
      cases hq : fortRecord 13 rs with
      | none => rfl
      | some q =>
        have := h1 rs 13 q.1 q.2 hq
        simp [ih q.2 (by omega)]
  rw [fortPrints, fortProfiles, h2 35 recs h]; rfl

/-- **C86 (Fortran columns), refutation.** The Fortran program stores the columns labelled O2, O, H2, H in the arrays for H, H2, O, O2. -/
theorem C86_fort_columns_false (rows : List (List ℝ)) (h : rows.length = 35) (h13 : ∀ r ∈ rows, 13 ≤ r.length) (rest : List (List ℝ)) :
    ∃ p, fortProfiles (rows ++ rest) = some p ∧ p.z = rows.map (under "z(m)") ∧
      p.col .yH = rows.map (under "y_O2") ∧ p.col .yH2 = rows.map (under "y_O") ∧ p.col .yO = rows.map (under "y_H2") ∧ p.col .yO2 = rows.map (under "y_H") ∧
      ∀ c ∉ [Col.yH, .yH2, .yO, .yO2], p.col c = rows.map (under c.label) := by
  have e := File.fort_some rows h13 rest
  rw [h] at e
  have hc : ∀ (k : ℕ) (l : String), k < 13 → fileHeader.idxOf l = k → (rows.map (·.take 13)).map (·.getD k 0) = rows.map (under l) := by
    intro k l hk hl
    rw [List.map_map]
    refine List.map_congr_left fun r _ => ?_
    show (r.take 13).getD k 0 = _
    rw [File.take_getD r hk, under, hl]
  refine ⟨profile fortOrder (rows.map fun r : List ℝ => r.take 13), by rw [fortProfiles, e]; rfl, hc 0 "z(m)" (by decide) (by decide),
    hc 5 "y_O2" (by decide) (by decide), hc 6 "y_O" (by decide) (by decide), hc 7 "y_H2" (by decide) (by decide), hc 8 "y_H" (by decide) (by decide), fun c hn => ?_⟩
  cases c
  case yH => simp at hn
  case yH2 => simp at hn
  case yO => simp at hn
  case yO2 => simp at hn
  all_goals exact hc _ _ (by decide) (by decide)

/-- **C86 (Fortran columns on the shipped file), refutation.** The two programs hold different oxygen profiles: at every row of the shipped file the
Fortran one is below 1e-5 and the C++ one above. -/
theorem C86_fort_oxygen_false : ∃ p q, fortProfiles fileReal = some q ∧ readProfiles (fileWords fileReal) = ok p ∧
    (∀ y ∈ q.col .yO2, y ≤ 1e-5) ∧ (∀ y ∈ p.col .yO2, 1e-5 < y) ∧ (q.col .yO2).length = 35 ∧ (p.col .yO2).length = 35 := by
  obtain ⟨q, e, _, _, _, _, eq, _⟩ := C86_fort_columns_false fileReal File.shape.1 (fun r hr => by rw [File.shape.2 r hr]; norm_num) []
  rw [List.append_nil] at e
  obtain ⟨p', e', _, ec⟩ := C86_reads fileReal File.shape.1 File.shape.2 []
  rw [List.append_nil] at e'
  obtain ⟨p, ep, hp, hl, _, _, _, h2, h3, _⟩ := C86_shipped_flame
  obtain rfl : p' = p := by have := e'.symm.trans ep; simpa using this
  refine ⟨p', q, e, ep, fun y hy => h2 y ?_, h3, by rw [eq, List.length_map, File.shape.1], by rw [hp.len, hl]⟩
  rw [eq] at hy
  rw [ec]
  exact hy

end Soot
