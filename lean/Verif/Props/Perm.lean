import Verif.Proofs.Perm

/-!
# C15, C17: permutation formats and composition
-/

namespace Verif.Props
open Verif Verif.Perm Verif.Spec.Perm

/-- C15 (LAPACK to mathematical).  For any transposition array (entries in range), the conversion does
not fault and returns an array `M` of distinct indices in range such that performing the exchanges on
any vector `v` gives the vector `i ↦ v (M i)`. -/
theorem C15_lapack_to_math (N : ℕ) (A P : Arr ℕ) (hA : A.len = N) (hP : P.len = N)
    (hb : ∀ i < N, P.get i < N) :
    ∃ M, LAPACKPerm2MathPerm A P N = .ok M ∧ M.len = N ∧ IsPermArray M.get N ∧
      ∀ (v : ℕ → ℕ), ∀ i < N, applySwaps P.get v N i = v (M.get i) := by
  obtain ⟨M, hM, hl, h⟩ := LAPACKPerm2MathPerm_spec N A P hA hP hb
  have hperm := ofSwaps_isPerm hb
  refine ⟨M, hM, hl, ⟨fun i hi => ?_, fun i hi j hj e => ?_⟩, fun v i hi => ?_⟩
  · rw [h i hi]; exact hperm.1 i hi
  · rw [h i hi, h j hj] at e; exact hperm.2 i hi j hj e
  · rw [applySwaps_eq, h i hi]; rfl

/-- C15 (mathematical to LAPACK).  For any array of distinct indices, whatever the contents of the
output and of the temporaries, the result is a valid transposition array performing the same
permutation. -/
theorem C15_math_to_lapack (N : ℕ) (L M : Arr ℕ) (j1 j2 : ℕ → ℕ) (hL : L.len = N) (hM : M.len = N)
    (hp : IsPermArray M.get N) :
    ∃ P, MathPerm2LAPACKPerm L M N j1 j2 = .ok P ∧ P.len = N ∧ IsTranspArray P.get N ∧
      ∀ (v : ℕ → ℕ), ∀ i < N, applySwaps P.get v N i = v (M.get i) := by
  obtain ⟨P, hP, hl, ht, h⟩ := MathPerm2LAPACKPerm_spec N L M j1 j2 hL hM hp
  refine ⟨P, hP, hl, ht, fun v i hi => ?_⟩
  rw [applySwaps_eq, h i hi]; rfl

/-- C15 (round trip from LAPACK format): every transposition array is recovered. -/
theorem C15_roundtrip_lapack (N : ℕ) (A L P : Arr ℕ) (j1 j2 : ℕ → ℕ) (hA : A.len = N) (hL : L.len = N)
    (hP : P.len = N) (ht : IsTranspArray P.get N) :
    ∃ M P', LAPACKPerm2MathPerm A P N = .ok M ∧ MathPerm2LAPACKPerm L M N j1 j2 = .ok P' ∧
      P'.toList = P.toList := by
  have hb : ∀ i < N, P.get i < N := fun i hi => (ht i hi).2
  obtain ⟨M, hM, hl, h⟩ := LAPACKPerm2MathPerm_spec N A P hA hP hb
  have hperm : IsPermArray M.get N := by
    have hperm := ofSwaps_isPerm hb
    refine ⟨fun i hi => ?_, fun i hi j hj e => ?_⟩
    · rw [h i hi]; exact hperm.1 i hi
    · rw [h i hi, h j hj] at e; exact hperm.2 i hi j hj e
  obtain ⟨P', hP', hl', ht', h'⟩ := MathPerm2LAPACKPerm_spec N L M j1 j2 hL hl hperm
  refine ⟨M, P', hM, hP', ?_⟩
  have := transp_unique ht' ht (fun i hi => by rw [← h' i hi, h i hi])
  simp only [Arr.toList, hl', hP]
  exact List.map_congr_left (fun i hi => this i (List.mem_range.mp hi))

/-- C15 (round trip from mathematical format): every permutation array is recovered. -/
theorem C15_roundtrip_math (N : ℕ) (A L M : Arr ℕ) (j1 j2 : ℕ → ℕ) (hA : A.len = N) (hL : L.len = N)
    (hM : M.len = N) (hp : IsPermArray M.get N) :
    ∃ P M', MathPerm2LAPACKPerm L M N j1 j2 = .ok P ∧ LAPACKPerm2MathPerm A P N = .ok M' ∧
      M'.toList = M.toList := by
  obtain ⟨P, hP, hl, ht, h⟩ := MathPerm2LAPACKPerm_spec N L M j1 j2 hL hM hp
  obtain ⟨M', hM', hl', h'⟩ := LAPACKPerm2MathPerm_spec N A P hA hl (fun i hi => (ht i hi).2)
  refine ⟨P, M', hP, hM', ?_⟩
  simp only [Arr.toList, hl', hM]
  refine List.map_congr_left (fun i hi => ?_)
  have hi := List.mem_range.mp hi
  rw [h' i hi, h i hi]

/-- Non-vacuity: a 4-cycle of length 5 in both formats. -/
example : IsTranspArray (Arr.ofList [2, 4, 3, 3, 4]).get 5 ∧ IsPermArray (Arr.ofList [2, 4, 3, 0, 1]).get 5 ∧
    (LAPACKPerm2MathPerm (Arr.ofList [9,9,9,9,9]) (Arr.ofList [2, 4, 3, 3, 4]) 5).toOption.map Arr.toList
      = some [2, 4, 3, 0, 1] ∧
    (MathPerm2LAPACKPerm (Arr.ofList [9,9,9,9,9]) (Arr.ofList [2, 4, 3, 0, 1]) 5 (fun _ => 7) (fun _ => 8)).toOption.map
      Arr.toList = some [2, 4, 3, 3, 4] := by
  refine ⟨?_, ⟨?_, ?_⟩, ?_, ?_⟩
  · unfold IsTranspArray; decide
  · decide
  · decide
  · decide
  · decide

/-- C17 (LAPACK result).  `composePermutationsLLL` returns a valid transposition array that performs the
exchanges of `P1` and then those of `P2` on the trailing part starting at `R`, on every vector. -/
theorem C17_compose_LLL (N R : ℕ) (P1 P2 : Arr ℕ) (jk j1 j2 : ℕ → ℕ) (hR : R ≤ N)
    (hP1 : P1.len = N) (hb1 : ∀ i < N, P1.get i < N)
    (hP2 : P2.len = N - R) (hb2 : ∀ i < N - R, P2.get i < N - R) :
    ∃ L, composePermutationsLLL P1 P2 R N jk j1 j2 = .ok L ∧ L.len = N ∧ IsTranspArray L.get N ∧
      ∀ (v : ℕ → ℕ), ∀ i < N,
        applySwaps L.get v N i = applyTrailing P2.get (applySwaps P1.get v N) R (N - R) i := by
  obtain ⟨L, hL, hl, ht, h⟩ := composePermutationsLLL_spec N R P1 P2 jk j1 j2 hR hP1 hb1 hP2 hb2
  refine ⟨L, hL, hl, ht, fun v i hi => ?_⟩
  simp only [applyTrailing, applySwaps_eq, Function.comp, h i hi, shiftPerm]
  split_ifs <;> rfl

/-- C17 (mathematical result). -/
theorem C17_compose_LLM (N R : ℕ) (A P1 P2 : Arr ℕ) (hA : A.len = N) (hR : R ≤ N)
    (hP1 : P1.len = N) (hb1 : ∀ i < N, P1.get i < N)
    (hP2 : P2.len = N - R) (hb2 : ∀ i < N - R, P2.get i < N - R) :
    ∃ M, composePermutationsLLM A P1 P2 R N = .ok M ∧ M.len = N ∧
      ∀ (v : ℕ → ℕ), ∀ i < N,
        v (M.get i) = applyTrailing P2.get (applySwaps P1.get v N) R (N - R) i := by
  obtain ⟨M, hM, hl, h⟩ := composePermutationsLLM_spec N R A P1 P2 hA hR hP1 hb1 hP2 hb2
  refine ⟨M, hM, hl, fun v i hi => ?_⟩
  simp only [applyTrailing, applySwaps_eq, Function.comp, h i hi, shiftPerm]
  split_ifs <;> rfl

/-- C17 (mathematical first operand, in place). -/
theorem C17_compose_MLM (N R : ℕ) (M P2 : Arr ℕ) (hM : M.len = N) (hR : R ≤ N)
    (hP2 : P2.len = N - R) (hb2 : ∀ i < N - R, P2.get i < N - R) :
    ∃ M', composePermutationsMLM M P2 R N = .ok M' ∧ M'.len = N ∧
      ∀ (v : ℕ → ℕ), ∀ i < N,
        v (M'.get i) = applyTrailing P2.get (fun i => v (M.get i)) R (N - R) i := by
  obtain ⟨M', hM', hl, h⟩ := composePermutationsMLM_spec N R M P2 hM hR hP2 hb2
  refine ⟨M', hM', hl, fun v i hi => ?_⟩
  simp only [applyTrailing, applySwaps_eq, Function.comp, h i hi, shiftPerm]
  split_ifs <;> rfl

/-- Non-vacuity: `P1 = (0 2)`, `P2` exchanging the last two of four entries, offset 2. -/
example : (composePermutationsLLL (Arr.ofList [2, 1, 2, 3]) (Arr.ofList [1, 1]) 2 4
    (fun _ => 0) (fun _ => 0) (fun _ => 0)).toOption.map Arr.toList = some [2, 1, 3, 3] := by decide

end Verif.Props
