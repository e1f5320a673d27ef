import Verif.Model.RandRook
import Verif.Proofs.RandRook

/-!
The arrays returned by the functions of `Verif/Model/RandRook.lean` are as long as those given.
-/

namespace Verif.RandRook

open Verif.FF

/-- if there is a result, it satisfies `Q` -/
def Par {α : Type} (e : Except Fault α) (Q : α → Prop) : Prop := ∀ x, e = .ok x → Q x

section
variable {α β σ : Type}

lemma Par_pure {a : α} {Q : α → Prop} (h : Q a) : Par (pure a) Q := by
  intro x e; cases e; exact h

lemma Par_error {f : Fault} {Q : α → Prop} : Par (.error f) Q := by
  intro x e; cases e

lemma Par_bind {e : Except Fault α} {f : α → Except Fault β} {Q : β → Prop} {P : α → Prop} (h : Par e P) (h' : ∀ a, P a → Par (f a) Q) :
    Par (e >>= f) Q := by
  intro x ex
  cases e with
  | error g => cases ex
  | ok a => exact h' a (h a rfl) x ex

lemma Par_any {e : Except Fault α} : Par e (fun _ => True) := fun _ _ => trivial

lemma Par_skip {e : Except Fault α} {f : α → Except Fault β} {Q : β → Prop} (h' : ∀ a, Par (f a) Q) : Par (e >>= f) Q :=
  Par_bind Par_any (fun a _ => h' a)

lemma Par_wr {A : Arr α} {i : ℕ} {v : α} : Par (A.wr i v) (fun B => B.len = A.len) := by
  intro x e
  unfold Arr.wr at e
  split_ifs at e
  · cases e; rfl

lemma Par_iter {n : ℕ} {f : ℕ → σ → Except Fault σ} {s : σ} (I : σ → Prop) (h0 : I s) (hs : ∀ i s, I s → Par (f i s) I) : Par (iter n f s) I := by
  induction n with
  | zero => exact Par_pure h0
  | succ n ih => exact Par_bind ih (fun a ha => hs n a ha)

end

lemma subset_len {d junk : ℕ → ℕ} {N R : ℕ} {P : Arr ℕ} : Par (randomIndexSubset d junk N R P) (fun Q => Q.len = P.len) := by
  unfold randomIndexSubset
  refine Par_skip fun Q => Par_bind (Par_iter (fun s => s.1.len = P.len) rfl ?_) (fun s hs => Par_pure hs)
  intro i s hs
  refine Par_skip fun j => Par_skip fun x => Par_bind Par_wr fun P' h => Par_skip fun y => Par_skip fun Q' => Par_pure ?_
  exact h.trans hs

lemma symStep_len {d : ℕ → ℕ} {N R fuel k : ℕ} {s : SymSt} : Par (symStep d N R fuel k s) (fun s' => s'.rows.len = s.rows.len ∧ s'.cols.len = s.cols.len) := by
  unfold symStep
  refine Par_skip fun i => Par_skip fun j => Par_skip fun x => Par_bind Par_wr fun cols hc => Par_skip fun y => Par_skip fun cc => Par_skip fun u =>
    Par_bind Par_wr fun rows hr => Par_skip fun v => Par_skip fun rr => Par_skip fun rk => Par_skip fun ck => ?_
  split_ifs
  · refine Par_bind Par_wr fun rows' hr' => Par_bind Par_wr fun cols' hc' => Par_skip fun _ => Par_skip fun _ => Par_pure ⟨?_, ?_⟩
    · exact hr'.trans hr
    · exact hc'.trans hc
  all_goals
  · refine Par_skip fun p => Par_bind Par_wr fun cols' hc' => Par_skip fun _ => Par_skip fun _ => Par_bind Par_wr fun rows' hr' => Par_skip fun _ => Par_skip fun _ =>
      Par_pure ⟨?_, ?_⟩
    · exact hr'.trans hr
    · exact hc'.trans hc

lemma randomSymmetric_len {d junk junk' : ℕ → ℕ} {fuel N R : ℕ} {rows cols : Arr ℕ} {x : Arr ℕ × Arr ℕ}
    (h : randomSymmetricRankProfileMatrix d junk junk' fuel N R rows cols = .ok x) : x.1.len = rows.len ∧ x.2.len = cols.len := by
  revert x
  change Par _ (fun x : Arr ℕ × Arr ℕ => x.1.len = rows.len ∧ x.2.len = cols.len)
  unfold randomSymmetricRankProfileMatrix
  refine Par_skip fun rr => Par_skip fun cc => Par_bind (Par_iter (fun s => s.rows.len = rows.len ∧ s.cols.len = cols.len) ⟨rfl, rfl⟩ ?_) (fun s hs => Par_pure hs)
  intro i s hs
  exact fun s' e => ⟨(symStep_len s' e).1.trans hs.1, (symStep_len s' e).2.trans hs.2⟩

/-- the positions returned are in arrays of the lengths of those of `s` -/
abbrev Same (s s' : LtqsSt) : Prop := s'.rows.len = s.rows.len ∧ s'.cols.len = s.cols.len

lemma ltqsNotMoved_len {n i : ℕ} {s : LtqsSt} : Par (ltqsNotMoved n i s) (Same s) := by
  unfold ltqsNotMoved
  exact Par_skip fun _ => Par_skip fun _ => Par_skip fun _ => Par_pure ⟨rfl, rfl⟩

lemma ltqsMoves_len {n t : ℕ} {s : LtqsSt} : Par (ltqsMoves n t s) (Same s) := by
  unfold ltqsMoves
  refine Par_skip fun _ => Par_skip fun _ => ?_
  split_ifs
  · exact Par_pure ⟨rfl, rfl⟩
  · exact Par_skip fun _ => Par_skip fun _ => Par_skip fun _ => Par_skip fun _ => Par_pure ⟨rfl, rfl⟩

lemma ltqsMove_len {d : ℕ → ℕ} {n : ℕ} {s : LtqsSt} : Par (ltqsMove d n s) (fun m => Same s m.2.2) := by
  unfold ltqsMove
  refine Par_skip fun _ => Par_skip fun _ => Par_skip fun x => ?_
  simp only []
  cases s.moves[x]? with
  | none => exact Par_error
  | some y =>
    simp only []
    split
    · exact Par_bind Par_wr fun _ h => Par_skip fun _ => Par_skip fun _ => Par_bind ltqsNotMoved_len fun _ h' => Par_pure ⟨h'.1, h'.2.trans h⟩
    · exact Par_bind Par_wr fun _ h => Par_skip fun _ => Par_skip fun _ => Par_bind ltqsNotMoved_len fun _ h' => Par_pure ⟨h'.1.trans h, h'.2⟩

lemma ltqsUndo_len {n i j x y : ℕ} {s : LtqsSt} : Par (ltqsUndo n i j x y s) (Same s) := by
  unfold ltqsUndo
  split
  · exact Par_bind Par_wr fun _ h => Par_skip fun _ => Par_skip fun _ => Par_bind ltqsNotMoved_len fun _ h' => Par_pure ⟨h'.1, h'.2.trans h⟩
  · exact Par_bind Par_wr fun _ h => Par_skip fun _ => Par_skip fun _ => Par_bind ltqsNotMoved_len fun _ h' => Par_pure ⟨h'.1.trans h, h'.2⟩

lemma ltqsKeep_len {i j x y : ℕ} {s : LtqsSt} : Par (ltqsKeep i j x y s) (Same s) := by
  unfold ltqsKeep
  split_ifs
  · exact Par_skip fun _ => Par_skip fun _ => Par_pure ⟨rfl, rfl⟩
  · exact Par_pure ⟨rfl, rfl⟩
  · exact Par_skip fun _ => Par_skip fun _ => Par_pure ⟨rfl, rfl⟩
  · exact Par_pure ⟨rfl, rfl⟩

lemma ltqsStep_len {d : ℕ → ℕ} {n t : ℕ} {s : LtqsSt} : Par (ltqsStep d n t s) (Same s) := by
  unfold ltqsStep
  refine Par_skip fun i => Par_skip fun j => Par_bind ltqsMoves_len fun s1 h1 => Par_bind ltqsMove_len fun m h2 => Par_skip fun ok => ?_
  split_ifs
  · exact fun s' e => ⟨(ltqsKeep_len s' e).1.trans (h2.1.trans h1.1), (ltqsKeep_len s' e).2.trans (h2.2.trans h1.2)⟩
  · exact fun s' e => ⟨(ltqsUndo_len s' e).1.trans (h2.1.trans h1.1), (ltqsUndo_len s' e).2.trans (h2.2.trans h1.2)⟩

lemma ltqsLoop_len {d : ℕ → ℕ} {n r t : ℕ} : ∀ (fuel : ℕ) (s : LtqsSt), Par (ltqsLoop d n r t fuel s) (Same s)
  | 0, _ => Par_error
  | fuel + 1, s => by
    unfold ltqsLoop
    split_ifs
    · refine Par_bind ltqsStep_len fun s1 h1 s' e => ?_
      have := ltqsLoop_len fuel s1 s' e
      exact ⟨this.1.trans h1.1, this.2.trans h1.2⟩
    · exact Par_pure ⟨rfl, rfl⟩

lemma ltqsInit_len {d junk : ℕ → ℕ} {jz : ℕ → ℤ} {n r : ℕ} {rows cols : Arr ℕ} :
    Par (ltqsInit d junk jz n r rows cols) (fun s => s.rows.len = rows.len ∧ s.cols.len = cols.len) := by
  unfold ltqsInit
  by_cases hn : n = 0
  · rw [if_pos hn]; exact fun _ e => nomatch e
  rw [if_neg hn]
  refine Par_skip fun _ => Par_bind subset_len fun rows' hr => Par_bind (P := fun s => s.1.len = cols.len) (Par_iter _ rfl ?_) fun s hs => ?_
  · intro i s hs
    exact Par_skip fun _ => Par_bind Par_wr fun _ h => Par_skip fun _ => Par_skip fun _ => Par_skip fun _ => Par_pure (h.trans hs)
  · exact Par_skip fun _ => Par_skip fun _ => Par_skip fun _ => Par_skip fun _ => Par_pure ⟨hr, hs⟩

lemma randomLTQS_len {d junk : ℕ → ℕ} {jz : ℕ → ℤ} {n r t : ℕ} {rows cols : Arr ℕ} {x : Arr ℕ × Arr ℕ}
    (h : randomLTQSRankProfileMatrix d junk jz n r t rows cols = .ok x) : x.1.len = rows.len ∧ x.2.len = cols.len := by
  revert x
  change Par _ (fun x : Arr ℕ × Arr ℕ => x.1.len = rows.len ∧ x.2.len = cols.len)
  unfold randomLTQSRankProfileMatrix
  exact Par_bind ltqsInit_len fun s hs => Par_bind (ltqsLoop_len _ s) fun s' hs' => Par_pure ⟨hs'.1.trans hs.1, hs'.2.trans hs.2⟩

end Verif.RandRook
