import Verif.Lemmas.Engine
import Verif.Model.Rcwa

/-!
# Inversion of `conv_solve` (helper lemmas)
-/

namespace Meent

theorem gratingType_le (s : Settings) : gratingType s = 0 ∨ gratingType s = 1 ∨ gratingType s = 2 := by
  unfold gratingType
  split
  · split
    · split <;> simp
    · simp
  · simp

theorem gratingType_zero {s : Settings} (h : gratingType s = 0) :
    ∃ u, s.ucell = .raster u ∧ u.ny = 1 ∧ (s.p.pol = 0 ∨ s.p.pol = 1) ∧ s.p.phi = none ∧ s.p.fto.2 = 0 := by
  unfold gratingType at h
  split at h
  · rename_i u hu
    split at h
    · rename_i h1
      split at h
      · rename_i h2; exact ⟨u, hu, h1, h2⟩
      · simp at h
    · simp at h
  · simp at h

theorem gratingType_one {s : Settings} (h : gratingType s = 1) :
    ∃ u, s.ucell = .raster u ∧ u.ny = 1 ∧ ¬((s.p.pol = 0 ∨ s.p.pol = 1) ∧ s.p.phi = none ∧ s.p.fto.2 = 0) := by
  unfold gratingType at h
  split at h
  · rename_i u hu
    split at h
    · rename_i h1
      split at h
      · simp at h
      · rename_i h2; exact ⟨u, hu, h1, h2⟩
    · simp at h
  · simp at h

theorem solve_for_conv_tetm {la : LinAlg} {s : Settings} {wl : ℝ}
    {convs : List (Conv (FlatIdx s.p.fto.1 s.p.fto.2))} {o : Out1D (2 * s.p.fto.1 + 1)} :
    solve_for_conv la s wl convs = .ok (.tetm o) ↔
      gratingType s = 0 ∧ s.algo = .tmm ∧ solve_1d la s.p wl (convs.map Conv.row) = .ok o := by
  unfold solve_for_conv
  rcases gratingType_le s with h | h | h <;> rcases ha : s.algo with _ | _ | _ <;>
    simp [h, Except.bind_ok]

theorem solve_for_conv_conical {la : LinAlg} {s : Settings} {wl : ℝ}
    {convs : List (Conv (FlatIdx s.p.fto.1 s.p.fto.2))} {o : OutCon s.p.fto.1 s.p.fto.2} :
    solve_for_conv la s wl convs = .ok (.conical o) ↔
      gratingType s = 1 ∧ s.algo = .tmm ∧ solve_1d_conical la s.p wl convs = .ok o := by
  unfold solve_for_conv
  rcases gratingType_le s with h | h | h <;> rcases ha : s.algo with _ | _ | _ <;>
    simp [h, Except.bind_ok]

theorem solve_for_conv_twoD {la : LinAlg} {s : Settings} {wl : ℝ}
    {convs : List (Conv (FlatIdx s.p.fto.1 s.p.fto.2))} {o : Out2D s.p.fto.1 s.p.fto.2} :
    solve_for_conv la s wl convs = .ok (.twoD o) ↔
      gratingType s = 2 ∧ s.algo = .tmm ∧ solve_2d la s.p wl convs = .ok o := by
  unfold solve_for_conv
  rcases gratingType_le s with h | h | h <;> rcases ha : s.algo with _ | _ | _ <;>
    simp [h, Except.bind_ok]

theorem solve_for_conv_smm {la : LinAlg} {s : Settings} {wl : ℝ}
    {convs : List (Conv (FlatIdx s.p.fto.1 s.p.fto.2))} :
    solve_for_conv la s wl convs = .ok .conicalSmm ↔ gratingType s = 1 ∧ s.algo = .smm := by
  unfold solve_for_conv
  rcases gratingType_le s with h | h | h <;> rcases ha : s.algo with _ | _ | _ <;>
    simp [h, Except.bind_ok]

theorem conv_solve_ok {la : LinAlg} {s : Settings} {r : Solved s.p.fto.1 s.p.fto.2} :
    conv_solve la s = .ok r ↔
      ∃ convs, convMats la s = .ok convs ∧ solve_for_conv la s s.p.wavelength convs = .ok r := by
  unfold conv_solve
  rw [Except.bind_ok]

theorem conv_solve_tetm {la : LinAlg} {s : Settings} {o : Out1D (2 * s.p.fto.1 + 1)} :
    conv_solve la s = .ok (.tetm o) ↔
      ∃ convs, convMats la s = .ok convs ∧ gratingType s = 0 ∧ s.algo = .tmm ∧
        solve_1d la s.p s.p.wavelength (convs.map Conv.row) = .ok o := by
  simp only [conv_solve_ok, solve_for_conv_tetm]

theorem conv_solve_conical {la : LinAlg} {s : Settings} {o : OutCon s.p.fto.1 s.p.fto.2} :
    conv_solve la s = .ok (.conical o) ↔
      ∃ convs, convMats la s = .ok convs ∧ gratingType s = 1 ∧ s.algo = .tmm ∧
        solve_1d_conical la s.p s.p.wavelength convs = .ok o := by
  simp only [conv_solve_ok, solve_for_conv_conical]

theorem conv_solve_twoD {la : LinAlg} {s : Settings} {o : Out2D s.p.fto.1 s.p.fto.2} :
    conv_solve la s = .ok (.twoD o) ↔
      ∃ convs, convMats la s = .ok convs ∧ gratingType s = 2 ∧ s.algo = .tmm ∧
        solve_2d la s.p s.p.wavelength convs = .ok o := by
  simp only [conv_solve_ok, solve_for_conv_twoD]

/-- The formulation of a successful solve. -/
theorem conv_solve_cases {la : LinAlg} {s : Settings} {r : Solved s.p.fto.1 s.p.fto.2}
    (h : conv_solve la s = .ok r) :
    (gratingType s = 0 ∧ ∃ o, r = .tetm o) ∨
    (gratingType s = 1 ∧ ((∃ o, r = .conical o) ∨ r = .conicalSmm)) ∨
    (gratingType s = 2 ∧ ∃ o, r = .twoD o) := by
  cases r with
  | tetm o =>
    obtain ⟨_, _, h, _⟩ := conv_solve_tetm.mp h
    exact .inl ⟨h, o, rfl⟩
  | conical o =>
    obtain ⟨_, _, h, _⟩ := conv_solve_conical.mp h
    exact .inr (.inl ⟨h, .inl ⟨o, rfl⟩⟩)
  | conicalSmm =>
    obtain ⟨_, _, h⟩ := conv_solve_ok.mp h
    exact .inr (.inl ⟨(solve_for_conv_smm.mp h).1, .inr rfl⟩)
  | twoD o =>
    obtain ⟨_, _, h, _⟩ := conv_solve_twoD.mp h
    exact .inr (.inr ⟨h, o, rfl⟩)

end Meent
