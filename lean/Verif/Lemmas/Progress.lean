import Verif.Lemmas.Threads

/-!
Progress by a measure: some thread helps, and goes on to help until it has.
-/
namespace Verif.Threads

/-- `J` leads to `Q` if there is a measure that never grows while `J` holds and `Q` does not, and always a thread that can take a
step which makes it smaller, and which stays the one that can until the measure is smaller. -/
theorem System.Execution.progress {S : System} (e : S.Execution) (hf : e.Fair) (I J Q : S.State → Prop)
    (μ : S.State → Nat) (H : Nat → S.State → Prop) (hI : ∀ n, I (e.at_ n))
    (hJ : ∀ s l s', I s → I s' → J s → S.step s l = some s' → J s')
    (hH : ∀ s, I s → J s → ¬ Q s → ∃ i, H i s)
    (hable : ∀ s i, I s → J s → ¬ Q s → H i s → (S.step s (.run i)).isSome)
    (hdown : ∀ s i s', I s → J s → ¬ Q s → H i s → S.step s (.run i) = some s' → Q s' ∨ μ s' < μ s)
    (hkeep : ∀ s i l s', I s → I s' → J s → ¬ Q s → H i s → S.step s l = some s' → l ≠ .run i →
      Q s' ∨ μ s' < μ s ∨ (μ s' ≤ μ s ∧ H i s')) : e.LeadsTo J Q := by
  have hJall : ∀ n, J (e.at_ n) → ∀ k, J (e.at_ (n + k)) := by
    intro n hn k
    induction k with
    | zero => exact hn
    | succ k ih =>
      have := e.ok (n + k)
      cases hl : e.label (n + k) with
      | none =>
        rw [hl] at this
        rw [show n + (k + 1) = n + k + 1 by omega, this]
        exact ih
      | some l =>
        rw [hl] at this
        exact hJ _ l _ (hI _) (hI _) ih this
  have key : ∀ b n, J (e.at_ n) → μ (e.at_ n) ≤ b → ∃ m, n ≤ m ∧ Q (e.at_ m) := by
    intro b
    induction b using Nat.strongRecOn with
    | _ b ih =>
      intro n hn hb
      by_cases hq : Q (e.at_ n)
      · exact ⟨n, Nat.le_refl n, hq⟩
      obtain ⟨i, hi⟩ := hH _ (hI n) hn hq
      by_cases hex : ∃ m, n ≤ m ∧ (Q (e.at_ m) ∨ μ (e.at_ m) < μ (e.at_ n))
      · obtain ⟨m, hm, hqm | hlt⟩ := hex
        · exact ⟨m, hm, hqm⟩
        · have hJm : J (e.at_ m) := by
            have := hJall n hn (m - n)
            rwa [show n + (m - n) = m by omega] at this
          obtain ⟨k, hk, hQ⟩ := ih (μ (e.at_ m)) (by omega) m hJm (Nat.le_refl _)
          exact ⟨k, by omega, hQ⟩
      · exfalso
        have hno : ∀ m, n ≤ m → ¬ Q (e.at_ m) ∧ μ (e.at_ n) ≤ μ (e.at_ m) := by
          intro m hm
          refine ⟨fun h => hex ⟨m, hm, Or.inl h⟩, ?_⟩
          by_cases h : μ (e.at_ m) < μ (e.at_ n)
          · exact absurd ⟨m, hm, Or.inr h⟩ hex
          · omega
        have hall : ∀ k, H i (e.at_ (n + k)) ∧ μ (e.at_ (n + k)) = μ (e.at_ n) ∧
            ∀ j, j < k → e.label (n + j) ≠ some (.run i) := by
          intro k
          induction k with
          | zero => exact ⟨hi, rfl, fun j hj => absurd hj (by omega)⟩
          | succ k ihk =>
            obtain ⟨h1, h2, h3⟩ := ihk
            have hok := e.ok (n + k)
            have hn1 := hno (n + k) (by omega)
            have hn2 := hno (n + (k + 1)) (by omega)
            rw [show n + (k + 1) = n + k + 1 by omega] at hn2 ⊢
            cases hl : e.label (n + k) with
            | none =>
              rw [hl] at hok
              simp only at hok
              rw [hok]
              refine ⟨h1, h2, ?_⟩
              intro j hj
              by_cases hjk : j = k
              · rw [hjk, hl]; simp
              · exact h3 j (by omega)
            | some l =>
              rw [hl] at hok
              simp only at hok
              by_cases hrun : l = .run i
              · subst hrun
                rcases hdown _ i _ (hI _) (hJall n hn k) hn1.1 h1 hok with h | h
                · exact absurd h hn2.1
                · omega
              · rcases hkeep _ i l _ (hI _) (hI _) (hJall n hn k) hn1.1 h1 hok hrun with h | h | ⟨h, hH'⟩
                · exact absurd h hn2.1
                · omega
                · refine ⟨hH', by omega, ?_⟩
                  intro j hj
                  by_cases hjk : j = k
                  · rw [hjk, hl]
                    intro h
                    exact hrun (Option.some.inj h)
                  · exact h3 j (by omega)
        obtain ⟨m, hm, hl⟩ := hf i n (fun m hm => ⟨m, Nat.le_refl m, by
          have h1 := (hall (m - n)).1
          have h2 := hJall n hn (m - n)
          rw [show n + (m - n) = m by omega] at h1 h2
          exact hable _ i (hI m) h2 (hno m hm).1 h1⟩)
        have := (hall (m - n + 1)).2.2 (m - n) (by omega)
        rw [show n + (m - n) = m by omega] at this
        exact this hl
  exact fun n hn => key _ n hn (Nat.le_refl _)

end Verif.Threads
