import Verif.Proofs.PPluq
import Verif.Model.PSolve

/-!
# Processes followed by others
-/

namespace Verif.ParV
open Verif.Par (blkAt)

variable {K ν : Type}

lemma wp_vbind (p : VProc K ν) : ∀ {W R T : ℕ → Prop} {v : ℕ → K} {f : ν → VProc K ν} {Q0 Q : ν → (ℕ → K) → Prop},
    wp p W R T v Q0 → (∀ x v', Q0 x v' → wp (f x) W R (fun _ => False) v' Q) → wp (vbind p f) W R T v Q := by
  induction p with
  | ret => intro W R T v f Q0 Q h hk; exact wp_mono_T _ (fun _ h => h.elim) (hk _ _ h)
  | fault => intro W R T v f Q0 Q h _; exact h
  | rd i k ih => intro W R T v f Q0 Q h hk; exact ⟨h.1, ih _ h.2 hk⟩
  | wr i x q ih => intro W R T v f Q0 Q h hk; exact ⟨h.1, ih h.2 hk⟩
  | alloc n k ih => intro W R T v f Q0 Q h hk p c hp; exact ih _ (h p c hp) hk
  | free p n q ih => intro W R T v f Q0 Q h hk; exact ⟨h.1, ih h.2 hk⟩
  | par n ts k _ ih =>
    rintro W R T v f Q0 Q ⟨T0, Wc, Rc, Tc, Qc, h1, h2, h3, h4, h5, h6, h7, h8⟩ hk
    exact ⟨T0, Wc, Rc, Tc, Qc, h1, h2, h3, h4, h5, h6, h7, fun x v' e q => ih x (h8 x v' e q) hk⟩

/-- cells that the process does not touch keep their contents `v0` -/
lemma wp_wide (p : VProc K ν) : ∀ {W X R T : ℕ → Prop} {v v0 : ℕ → K} {Q : ν → (ℕ → K) → Prop}, (∀ i, X i → ¬ W i ∧ ¬ T i) →
    (∀ i, X i → v i = v0 i) → wp p W R T v Q → wp p (fun i => W i ∨ X i) R T v (fun x v' => Q x v' ∧ ∀ i, X i → v' i = v0 i) := by
  induction p with
  | ret => intro W X R T v v0 Q _ hv h; exact ⟨h, hv⟩
  | fault => intro W X R T v v0 Q _ _ h; exact h
  | rd i k ih => intro W X R T v v0 Q hX hv h; exact ⟨h.1.imp Or.inl id, ih _ hX hv h.2⟩
  | wr i x q ih =>
    intro W X R T v v0 Q hX hv h
    refine ⟨h.1.imp Or.inl id, ih hX (fun l hl => ?_) h.2⟩
    have e : l ≠ i := by
      rintro rfl
      exact h.1.elim (hX l hl).1 (hX l hl).2
    rw [Function.update_of_ne e]
    exact hv l hl
  | alloc n k ih =>
    intro W X R T v v0 Q hX hv h p c hp
    have hn : ∀ i, X i → ¬ blkAt p n i := fun i hi hb => hp i hb (Or.inl (Or.inr hi))
    refine ih _ (fun i hi => ⟨(hX i hi).1, fun ht => ht.elim (hX i hi).2 (hn i hi)⟩) (fun i hi => ?_)
      (h p c (fun i hi hc => hp i hi (hc.imp Or.inl id)))
    rw [if_neg (hn i hi)]
    exact hv i hi
  | free p n q ih => intro W X R T v v0 Q hX hv h; exact ⟨h.1, ih (fun i hi => ⟨(hX i hi).1, fun ht => (hX i hi).2 ht.1⟩) hv h.2⟩
  | par n ts k _ ih =>
    rintro W X R T v v0 Q hX hv ⟨T0, Wc, Rc, Tc, Qc, h1, h2, h3, h4, h5, h6, h7, h8⟩
    refine ⟨T0, Wc, Rc, Tc, Qc, h1, h2, fun j i hi => (h3 j i hi).imp Or.inl id, fun j i hi => (h4 j i hi).imp Or.inl id, h5, h6, h7,
      fun x v' e q => ih x (fun i hi => ⟨(hX i hi).1, fun ht => (hX i hi).2 (h1 i ht)⟩) (fun i hi => ?_) (h8 x v' (fun i hi => e i (hi.imp Or.inl id)) q)⟩
    rw [e i (Or.inl (Or.inr hi)) (fun j hj => (h3 j i hj).elim (hX i hi).1 (fun t => (hX i hi).2 (h1 i t))), hv i hi]

end Verif.ParV
