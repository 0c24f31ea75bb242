import Verif.Lemmas.Screen
/-!
C153, C154: what a user of `StdinEventHandler` sees of the line they edit.
-/
namespace Verif.Editor
open Verif.History

/-- From row `r` on the screen shows `t`, wrapped at the last column, and nothing else. -/
def ShowsText (w : Nat) (r : Int) (t : Str) (s : Screen) : Prop :=
  ∀ k : Nat, s.cell (r + (k / w : Nat)) (k % w) = t.getD k ' '

/-- What was above row `r` is still there. -/
def Untouched (base : Int → Nat → Char) (r : Int) (s : Screen) : Prop := ∀ i j, i < r → s.cell i j = base i j

/-- The cursor is at the `n`-th place from the beginning of row `r` on. -/
def CursorAt (w : Nat) (r : Int) (n : Nat) (s : Screen) : Prop :=
  s.row = r + (n / w : Nat) ∧ s.col = n % w ∧ s.pend = false

/-- The screen is as it should be: prompt and line from row `r` on, what was above, the cursor where the next character
goes. -/
structure Shown (w : Nat) (base : Int → Nat → Char) (r : Int) (line : Str) (cur : Nat) (s : Screen) : Prop where
  text : ShowsText w r (['>', '>', ' '] ++ line) s
  above : Untouched base r s
  cursor : CursorAt w r (3 + cur) s

/-- The cursor is behind a text that fills its last row. -/
def Full (w : Nat) (line : Str) (cur : Nat) : Prop := cur = line.length ∧ (3 + line.length) % w = 0

instance (w : Nat) (line : Str) (cur : Nat) : Decidable (Full w line cur) := by unfold Full; infer_instance

/-- The cursor is in the last row of the text. -/
def LastRow (w : Nat) (line : Str) (cur : Nat) : Prop := (2 + line.length) / w ≤ (3 + cur) / w

instance (w : Nat) (line : Str) (cur : Nat) : Decidable (LastRow w line cur) := by unfold LastRow; infer_instance

/-- As `Shown`, but of the cursor only that it is in its row, or in the last row of the text. -/
structure Kept (w : Nat) (base : Int → Nat → Char) (r : Int) (line : Str) (cur : Nat) (s : Screen) : Prop where
  text : ShowsText w r (['>', '>', ' '] ++ line) s
  above : Untouched base r s
  row : s.row = r + (min ((3 + cur) / w) ((2 + line.length) / w) : Nat)

theorem rowsOf_eq (w n : Nat) (hw : 0 < w) (hn : 0 < n) : rowsOf w n = (n - 1) / w + 1 := by
  unfold rowsOf
  rw [show n + w - 1 = (n - 1) + w by omega, Nat.add_div_right _ hw]

theorem row_le {w : Nat} {line : Str} {cur : Nat} (hw : 0 < w) (hc : cur ≤ line.length) (hf : ¬ Full w line cur) :
    (3 + cur) / w ≤ (2 + line.length) / w := by
  by_cases h : cur = line.length
  · have hm : (3 + line.length) % w ≠ 0 := fun hm => hf ⟨h, hm⟩
    have := div_pred hw (show 0 < 3 + line.length by omega)
    rw [if_neg hm, show 3 + line.length - 1 = 2 + line.length by omega] at this
    rw [h, this]
    exact Nat.le_refl _
  · exact Nat.div_le_div_right (by omega)

theorem Shown.kept {w : Nat} {base : Int → Nat → Char} {r : Int} {line : Str} {cur : Nat} {s : Screen} (hw : 0 < w)
    (h : Shown w base r line cur s) (hc : cur ≤ line.length) (hf : ¬ Full w line cur) : Kept w base r line cur s := by
  refine ⟨h.text, h.above, ?_⟩
  rw [h.cursor.1, Nat.min_eq_left (row_le hw hc hf)]

theorem prompt_visible {line : Str} (h : ∀ c ∈ line, visible c = true) : ∀ c ∈ prompt ++ line, visible c = true := by
  intro c hc
  rcases List.mem_append.1 hc with hc | hc
  · simp only [prompt, List.mem_cons, List.not_mem_nil, or_false] at hc
    rcases hc with rfl | rfl | rfl <;> decide
  · exact h c hc

/-- Clearing the rows of the old line from its last one on and writing the new one. -/
theorem cleared {w : Nat} {base : Int → Nat → Char} {r : Int} {old line : Str} {s : Screen} (hw : 0 < w)
    (ht : ShowsText w r (['>', '>', ' '] ++ old) s) (ha : Untouched base r s)
    (hr : s.row = r + ((2 + old.length) / w : Nat)) (hv : ∀ c ∈ line, visible c = true) :
    ∃ s', s' = s.draw w (clearRows (rowsOf w (3 + old.length)) ++ (prompt ++ line).map .put) ∧
      ShowsText w r (['>', '>', ' '] ++ line) s' ∧ Untouched base r s' ∧
      s'.row = r + ((2 + line.length) / w : Nat) ∧
      ((3 + line.length) % w ≠ 0 → s'.col = (3 + line.length) % w ∧ s'.pend = false) := by
  refine ⟨_, rfl, ?_⟩
  rw [draw_append]
  have hrows : rowsOf w (3 + old.length) = (2 + old.length) / w + 1 := by
    rw [rowsOf_eq w _ hw (by omega), show 3 + old.length - 1 = 2 + old.length by omega]
  rw [hrows]
  obtain ⟨h1, h2, h3, h4⟩ := draw_clear w s ((2 + old.length) / w + 1) (Nat.succ_pos _)
  generalize s.draw w (clearRows ((2 + old.length) / w + 1)) = u at h1 h2 h3 h4
  have hu : u.row = r := by rw [h2, hr]; omega
  have hw' := draw_text w hw u (prompt ++ line) (prompt_visible hv) h3 h4
  rw [hu] at hw'
  generalize u.draw w ((prompt ++ line).map .put) = v at hw'
  have hlen : (prompt ++ line).length = 3 + line.length := by rw [List.length_append]; rfl
  have hne : prompt ++ line ≠ [] := by simp [prompt]
  refine ⟨?_, ?_, ?_, ?_⟩
  · intro k
    by_cases hk : k < (prompt ++ line).length
    · rw [hw'.text k hk]
      show _ = (prompt ++ line).getD k ' '
      rw [List.getD_eq_getElem?_getD, List.getElem?_eq_getElem hk, Option.getD_some]
    · rw [hw'.rest k (by omega), h1]
      have hd : (['>', '>', ' '] ++ line).getD k ' ' = ' ' := by
        show (prompt ++ line).getD k ' ' = ' '
        rw [List.getD_eq_getElem?_getD, List.getElem?_eq_none (by omega), Option.getD_none]
      rw [hd]
      split
      · rfl
      · rename_i hi
        rw [ht k]
        have hk2 : ¬ k ≤ 2 + old.length := by
          intro hle
          have := Nat.div_le_div_right (c := w) hle
          have h0 : (0 : Int) ≤ ((k / w : Nat) : Int) := Int.natCast_nonneg _
          apply hi
          rw [hr]
          omega
        rw [List.getD_eq_getElem?_getD, List.getElem?_eq_none, Option.getD_none]
        rw [List.length_append]
        show 3 + old.length ≤ k
        omega
  · intro i j hi
    rw [hw'.above i j hi, h1, if_neg (by rw [hr]; omega), ha i j hi]
  · rw [hw'.row, hlen, show 3 + line.length - 1 = 2 + line.length by omega]
  · intro hm
    have hn : ¬ ((prompt ++ line).length % w = 0 ∧ prompt ++ line ≠ []) := by rw [hlen]; exact fun h => hm h.1
    refine ⟨?_, ?_⟩
    · rw [hw'.col, if_neg hn, hlen]
    · rw [hw'.pend]; exact decide_eq_false hn

/-- A changed line is shown. -/
theorem redraw {w : Nat} {base : Int → Nat → Char} {r : Int} {old line : Str} {oc cur : Nat} {s : Screen} (hw : 0 < w)
    (h : Kept w base r old oc s) (hne : line ≠ old) (hc : cur ≤ line.length) (hv : ∀ c ∈ line, visible c = true) :
    Kept w base r line cur (s.draw w (updateLine w old oc line cur)) ∧
    (¬ Full w line cur → Shown w base r line cur (s.draw w (updateLine w old oc line cur))) := by
  have hl : (prompt ++ old).length = 3 + old.length := by rw [List.length_append]; rfl
  have hp : prompt.length = 3 := rfl
  have ho : rowsOf w (3 + old.length) - 1 - (3 + oc) / w = (2 + old.length) / w - (3 + oc) / w := by
    rw [rowsOf_eq w _ hw (by omega), show 3 + old.length - 1 = 2 + old.length by omega, Nat.add_sub_cancel]
  have hn : rowsOf w (3 + line.length) - 1 - (3 + cur) / w = (2 + line.length) / w - (3 + cur) / w := by
    rw [rowsOf_eq w _ hw (by omega), show 3 + line.length - 1 = 2 + line.length by omega, Nat.add_sub_cancel]
  simp only [updateLine, if_neg hne, hl, hp, ho, hn]
  rw [draw_append, draw_append, List.append_assoc, draw_append]
  obtain ⟨d1, d2⟩ := draw_downs w s ((2 + old.length) / w - (3 + oc) / w)
  generalize s.draw w (List.replicate ((2 + old.length) / w - (3 + oc) / w) .down) = s1 at d1 d2
  obtain ⟨s2, e2, t2, a2, r2, -⟩ := cleared (base := base) (s := s1) (line := line) hw (fun k => by rw [d1]; exact h.text k)
    (fun i j hi => by rw [d1]; exact h.above i j hi) (by rw [d2, h.row]; omega) hv
  rw [← e2]
  obtain ⟨u1, u2⟩ := draw_ups w s2 ((2 + line.length) / w - (3 + cur) / w)
  generalize s2.draw w (List.replicate ((2 + line.length) / w - (3 + cur) / w) .up) = s3 at u1 u2
  rw [draw_column w s3 _ (Nat.mod_lt _ hw)]
  have hrow : s3.row = r + (min ((3 + cur) / w) ((2 + line.length) / w) : Nat) := by rw [u2, r2]; omega
  refine ⟨⟨fun k => ?_, fun i j hi => ?_, hrow⟩, fun hf => ⟨fun k => ?_, fun i j hi => ?_, ?_, rfl, rfl⟩⟩
  · show s3.cell _ _ = _; rw [u1]; exact t2 k
  · show s3.cell _ _ = _; rw [u1]; exact a2 i j hi
  · show s3.cell _ _ = _; rw [u1]; exact t2 k
  · show s3.cell _ _ = _; rw [u1]; exact a2 i j hi
  · show s3.row = _
    rw [hrow, Nat.min_eq_left (row_le hw hc hf)]

/-- The cursor moves. -/
theorem moved {w : Nat} {base : Int → Nat → Char} {r : Int} {line : Str} {oc cur : Nat} {s : Screen} (hw : 0 < w)
    (h : Shown w base r line oc s) : Shown w base r line cur (s.draw w (updateLine w line oc line cur)) := by
  have hp : prompt.length = 3 := rfl
  simp only [updateLine, if_pos, hp]
  rw [draw_append, draw_append]
  obtain ⟨d1, d2⟩ := draw_downs w s ((3 + cur) / w - (3 + oc) / w)
  generalize s.draw w (List.replicate ((3 + cur) / w - (3 + oc) / w) .down) = s1 at d1 d2
  obtain ⟨u1, u2⟩ := draw_ups w s1 ((3 + oc) / w - (3 + cur) / w)
  generalize s1.draw w (List.replicate ((3 + oc) / w - (3 + cur) / w) .up) = s2 at u1 u2
  rw [draw_column w s2 _ (Nat.mod_lt _ hw)]
  refine ⟨fun k => ?_, fun i j hi => ?_, ?_, rfl, rfl⟩
  · show s2.cell _ _ = _; rw [u1, d1]; exact h.text k
  · show s2.cell _ _ = _; rw [u1, d1]; exact h.above i j hi
  · show s2.row = _
    rw [u2, d2, h.cursor.1]
    omega

/-- A key without effect. -/
theorem unmoved {w : Nat} {base : Int → Nat → Char} {r : Int} {line : Str} {cur : Nat} {s : Screen} (hw : 0 < w)
    (h : Kept w base r line cur s) : Kept w base r line cur (s.draw w (updateLine w line cur line cur)) := by
  simp only [updateLine, if_pos, Nat.sub_self, List.replicate_zero, List.nil_append]
  rw [draw_column w s _ (Nat.mod_lt _ hw)]
  exact ⟨h.text, h.above, h.row⟩

/-- A command of the history is shown. -/
theorem recalled {w : Nat} {base : Int → Nat → Char} {r : Int} {old cmd : Str} {oc : Nat} {s : Screen} (hw : 0 < w)
    (h : Kept w base r old oc s) (hl : LastRow w old oc) (hv : ∀ c ∈ cmd, visible c = true) :
    Kept w base r cmd cmd.length (s.draw w (showCommand w old cmd)) ∧
    (¬ Full w cmd cmd.length → Shown w base r cmd cmd.length (s.draw w (showCommand w old cmd))) := by
  obtain ⟨s2, e2, t2, a2, r2, c2⟩ := cleared (s := s) (line := cmd) hw h.text h.above
    (by rw [h.row, Nat.min_eq_right hl]) hv
  have e : s.draw w (showCommand w old cmd) = s2 := by rw [e2]; rfl
  rw [e]
  have hle : (2 + cmd.length) / w ≤ (3 + cmd.length) / w := Nat.div_le_div_right (by omega)
  refine ⟨⟨t2, a2, by rw [r2, Nat.min_eq_right hle]⟩, fun hf => ?_⟩
  have hm : (3 + cmd.length) % w ≠ 0 := fun hm => hf ⟨rfl, hm⟩
  exact ⟨t2, a2, by rw [r2, Nat.le_antisymm hle (row_le hw (Nat.le_refl _) hf)], c2 hm⟩

/-- The screen is right: text and what was above always, the cursor too unless it is behind a full row. -/
structure Right (w : Nat) (base : Int → Nat → Char) (r : Int) (line : Str) (cur : Nat) (s : Screen) : Prop where
  kept : Kept w base r line cur s
  shown : ¬ Full w line cur → Shown w base r line cur s

/-- The next key is one that recalls commands: arrow up, arrow down, page up, page down. -/
def recalls : Str → Bool
  | e :: _ :: k :: _ => e == Char.ofNat 27 && (k == 'A' || k == 'B' || k == '5' || k == '6')
  | _ => false

theorem recall_ok {w : Nat} {b : Bool} {s s' : St} {x : Res (Hist × Str)} (h : recall w b s x = .ok s') :
    0 < w ∨ s'.line = s.line ∧ s'.cur = s.cur := by
  unfold recall at h
  split at h
  · split at h
    · split at h
      · cases h
      · exact Or.inl (by omega)
    · split at h
      · split at h
        · cases h
        · exact Or.inl (by omega)
      · cases h; exact Or.inr ⟨rfl, rfl⟩
  all_goals cases h

theorem recall_blank {w : Nat} {s s' : St} {x : Res (Hist × Str)} (h : recall w true s x = .ok s') :
    s'.cur = s'.line.length ∧ s'.out = s.out := by
  unfold recall at h
  split at h
  · split at h
    · split at h
      · cases h
      · cases h; exact ⟨rfl, rfl⟩
    · split at h
      · split at h
        · cases h
        · cases h; exact ⟨rfl, rfl⟩
      · contradiction
  all_goals cases h

/-- One iteration. -/
theorem right_step {w : Nat} {base : Int → Nat → Char} {r : Int} {ign : Bool} {s s' : St} {scr : Screen} (hw : 0 < w)
    (h : step w ign s = .ok s') (hout : s'.out = s.out) (hcur : s.cur ≤ s.line.length)
    (hs : Right w base r s.line s.cur scr) (hv : ∀ c ∈ s'.line, visible c = true)
    (hmove : s'.line = s.line → s'.cur ≠ s.cur → ¬ Full w s.line s.cur ∧ ¬ Full w s'.line s'.cur)
    (hrec : recalls s.input = true → LastRow w s.line s.cur) :
    s'.cur ≤ s'.line.length ∧ Right w base r s'.line s'.cur (scr.draw w (written w s s')) := by
  -- the effect of `update_line`
  have upd : ∀ s' : St, s'.cur ≤ s'.line.length → (∀ c ∈ s'.line, visible c = true) →
      (s'.line = s.line → s'.cur ≠ s.cur → ¬ Full w s.line s.cur ∧ ¬ Full w s'.line s'.cur) →
      Right w base r s'.line s'.cur (scr.draw w (updateLine w s.line s.cur s'.line s'.cur)) := by
    intro s' hc hv hm
    by_cases hl : s'.line = s.line
    · by_cases hcc : s'.cur = s.cur
      · rw [hl, hcc]
        exact ⟨unmoved hw hs.kept, fun hf => moved hw (hs.shown hf)⟩
      · obtain ⟨f1, f2⟩ := hm hl hcc
        have := moved (cur := s'.cur) hw (hs.shown f1)
        rw [hl] at f2 hc ⊢
        exact ⟨this.kept hw hc f2, fun _ => this⟩
    · obtain ⟨k, sh⟩ := redraw hw hs.kept hl hc hv
      exact ⟨k, sh⟩
  -- the effect of recalling
  have hrc : LastRow w s.line s.cur → ∀ cmd : Str, (∀ c ∈ cmd, visible c = true) →
      Right w base r cmd cmd.length (scr.draw w (showCommand w s.line cmd)) := by
    intro hl cmd hv
    obtain ⟨k, sh⟩ := recalled hw hs.kept hl hv
    exact ⟨k, sh⟩
  have hw0 : ¬ w = 0 := by omega
  unfold step at h
  unfold written
  by_cases ha : s.active = 0
  · rw [if_pos ha] at h ⊢
    cases h
    exact ⟨hcur, hs⟩
  rw [if_neg ha] at h ⊢
  rcases hg : getc s.input with ⟨k, rr⟩
  rw [hg] at h
  dsimp only at h ⊢
  rw [if_neg hw0]
  by_cases he : k.getD eofChar = esc
  · rw [if_pos he] at h ⊢
    unfold escape at h
    dsimp only at h
    rcases hg1 : getc rr with ⟨k1, r1⟩
    rw [hg1] at h
    dsimp only at h ⊢
    rcases hg2 : getc r1 with ⟨k2, r2⟩
    rw [hg2] at h
    dsimp only at h ⊢
    have hin : ∀ x, k2 = some x → (x = 'A' ∨ x = 'B' ∨ x = '5' ∨ x = '6') → LastRow w s.line s.cur := by
      intro x hx hx2
      apply hrec
      subst hx
      cases hi : s.input with
      | nil => rw [hi] at hg; cases hg; exact absurd he (by decide)
      | cons a l =>
        rw [hi] at hg
        cases hg
        cases rr with
        | nil => cases hg1; cases hg2
        | cons b m =>
          cases hg1
          cases r1 with
          | nil => cases hg2
          | cons d n =>
            cases hg2
            have he : a = Char.ofNat 27 := he
            subst he
            rcases hx2 with rfl | rfl | rfl | rfl <;> rfl
    -- arrow up and page up
    have hup : ∀ s1 : St, s1.line = s.line → s1.cur = s.cur → s1.hist = s.hist → recall w false s1 (prev s.hist) = .ok s' →
        LastRow w s.line s.cur → s'.cur ≤ s'.line.length ∧ Right w base r s'.line s'.cur (scr.draw w (upOut w s)) := by
      intro s1 e1 e2 e3 h hl
      unfold recall at h
      unfold upOut
      split at h
      · rename_i hh c hp
        rw [hp]
        dsimp only
        by_cases hc : c ≠ []
        · rw [if_pos hc] at h ⊢
          rw [if_neg hw0] at h
          cases h
          exact ⟨Nat.le_refl _, hrc hl c hv⟩
        · rw [if_neg hc] at h ⊢
          rw [if_neg (by decide)] at h
          cases h
          refine ⟨by rw [e1, e2]; exact hcur, ?_⟩
          show Right w base r s1.line s1.cur scr
          rw [e1, e2]
          exact hs
      all_goals cases h
    have hdown : ∀ s1 : St, recall w true s1 (next s.hist) = .ok s' → LastRow w s.line s.cur →
        s'.cur ≤ s'.line.length ∧ Right w base r s'.line s'.cur (scr.draw w (showCommand w s.line s'.line)) := by
      intro s1 h hl
      obtain ⟨hc, -⟩ := recall_blank h
      rw [hc]
      exact ⟨Nat.le_refl _, hrc hl s'.line hv⟩
    have herase : ∀ s1 : St, s1.line = s.line → s1.cur = s.cur → eraseAt s1 s1.cur s1.cur = .ok s' →
        s'.cur ≤ s'.line.length := by
      intro s1 e1 e2 h
      unfold eraseAt at h
      split at h
      · rename_i hlt
        cases h
        show s1.cur ≤ (s1.line.eraseIdx s1.cur).length
        rw [List.length_eraseIdx, if_pos hlt]
        omega
      · cases h
    split at h
    · exact hup { s with input := r2 } rfl rfl rfl h (hin _ rfl (by decide))
    · exact hdown _ h (hin _ rfl (by decide))
    · by_cases hc : 0 < s.cur
      · rw [if_pos hc] at h
        rw [if_pos hc]
        cases h
        exact ⟨by show s.cur - 1 ≤ s.line.length; omega, upd _ (by show s.cur - 1 ≤ s.line.length; omega) hv hmove⟩
      · rw [if_neg hc] at h
        rw [if_neg hc]
        cases h
        exact ⟨hcur, hs⟩
    · have hc : s'.cur ≤ s'.line.length := by
        by_cases hc : s.cur < s.line.length
        · rw [if_pos hc] at h; cases h; exact hc
        · rw [if_neg hc] at h; cases h; exact hcur
      exact ⟨hc, upd s' hc hv hmove⟩
    · cases h
      exact ⟨hcur, hs⟩
    · simp only []
      by_cases ht : (getc r2).1 = some '~'
      · rw [if_pos ht] at h
        by_cases hc : s.cur < s.line.length
        · rw [if_pos hc] at h
          have hc' := herase { s with input := (getc r2).2 } rfl rfl h
          rw [if_pos (by simp [ht, hc])]
          exact ⟨hc', upd s' hc' hv hmove⟩
        · rw [if_neg hc] at h
          rw [if_neg (by simp [hc])]
          cases h
          exact ⟨hcur, hs⟩
      · rw [if_neg ht] at h
        rw [if_neg (by simp [ht])]
        cases h
        exact ⟨hcur, hs⟩
    · simp only []
      by_cases ht : (getc r2).1 = some '~'
      · rw [if_pos ht] at h
        rw [if_pos (by simp [ht])]
        exact hup { s with input := (getc r2).2 } rfl rfl rfl h (hin _ rfl (by decide))
      · rw [if_neg ht] at h
        rw [if_neg (by simp [ht])]
        cases h
        exact ⟨hcur, hs⟩
    · simp only []
      by_cases ht : (getc r2).1 = some '~'
      · rw [if_pos ht] at h
        rw [if_pos (by simp [ht])]
        exact hdown _ h (hin _ rfl (by decide))
      · rw [if_neg ht] at h
        rw [if_neg (by simp [ht])]
        cases h
        exact ⟨hcur, hs⟩
    · cases h
      exact ⟨Nat.zero_le _, upd _ (Nat.zero_le _) hv hmove⟩
    · cases h
      exact ⟨Nat.le_refl _, upd _ (Nat.le_refl _) hv hmove⟩
    · rename_i n1 n2 n3 n4 n5 n6 n7 n8 n9 n10
      cases h
      split
      · exact absurd rfl n1
      · exact absurd rfl n2
      · exact absurd rfl n3
      · exact absurd rfl n4
      · exact absurd rfl n6
      · exact absurd rfl n7
      · exact absurd rfl n8
      · exact absurd rfl n9
      · exact absurd rfl n10
      · exact ⟨hcur, hs⟩
  · rw [if_neg he] at h ⊢
    by_cases hn : k.getD eofChar = '\n' ∨ k.getD eofChar = '\r'
    · rw [if_pos hn] at h
      cases h
      exact absurd (congrArg List.length hout) (by simp)
    · rw [if_neg hn] at h ⊢
      by_cases hb : k.getD eofChar = bs ∨ k.getD eofChar = del
      · rw [if_pos hb] at h ⊢
        by_cases hc : 0 < s.cur
        · rw [if_pos hc] at h ⊢
          unfold eraseAt at h
          split at h
          · rename_i hlt
            cases h
            have hc' : s.cur - 1 ≤ (s.line.eraseIdx (s.cur - 1)).length := by
              rw [List.length_eraseIdx, if_pos hlt]
              have hlt : s.cur - 1 < s.line.length := hlt
              show s.cur - 1 ≤ s.line.length - 1
              omega
            exact ⟨hc', upd _ hc' hv hmove⟩
          · cases h
        · rw [if_neg hc] at h ⊢
          cases h
          exact ⟨hcur, hs⟩
      · rw [if_neg hb] at h ⊢
        by_cases hcc : k.getD eofChar = ctrlC
        · rw [if_pos hcc] at h
          cases h
          exact absurd (congrArg List.length hout) (by simp)
        · rw [if_neg hcc, if_pos (show s.cur ≤ s.line.length from hcur)] at h
          rw [if_neg hcc]
          cases h
          have hc' : s.cur + 1 ≤ (s.line.take s.cur ++ (k.getD eofChar) :: s.line.drop s.cur).length := by
            simp only [List.length_append, List.length_take, List.length_cons, List.length_drop]
            omega
          exact ⟨hc', upd _ hc' hv hmove⟩

/-- What the keys must be like: printable characters; commands recalled only with the cursor in the last row; the cursor
moved neither from nor to behind a full row. -/
structure Careful (w : Nat) (igns : List Bool) (p : St × Screen) : Prop where
  visible : ∀ j q, stepsOn w (igns.take j) p = .ok q → ∀ c ∈ q.1.line, visible c = true
  recalls : ∀ j q, stepsOn w (igns.take j) p = .ok q → recalls q.1.input = true → LastRow w q.1.line q.1.cur
  moves : ∀ j q q', stepsOn w (igns.take j) p = .ok q → stepsOn w (igns.take (j + 1)) p = .ok q' →
    q'.1.line = q.1.line → q'.1.cur ≠ q.1.cur → ¬ Full w q.1.line q.1.cur ∧ ¬ Full w q'.1.line q'.1.cur

theorem stepOn_ok {w : Nat} {i : Bool} {p q : St × Screen} (h : stepOn w i p = .ok q) :
    step w i p.1 = .ok q.1 ∧ q.2 = p.2.draw w (written w p.1 q.1) := by
  unfold stepOn at h
  split at h
  · rename_i s' hs; cases h; exact ⟨hs, rfl⟩
  all_goals cases h

theorem stepsOn_cons {w : Nat} {i : Bool} {is : List Bool} {p q : St × Screen} (h : stepsOn w (i :: is) p = .ok q) :
    ∃ p1, stepOn w i p = .ok p1 ∧ stepsOn w is p1 = .ok q := by
  unfold stepsOn at h
  split at h
  · rename_i p1 hp; exact ⟨p1, hp, h⟩
  all_goals cases h

theorem stepsOn_cons' {w : Nat} {i : Bool} {is : List Bool} {p p1 : St × Screen} (h : stepOn w i p = .ok p1) :
    stepsOn w (i :: is) p = stepsOn w is p1 := by
  rw [stepsOn, h]

theorem right_steps {w : Nat} {base : Int → Nat → Char} {r : Int} (hw : 0 < w) (igns : List Bool) (p q : St × Screen)
    (h : stepsOn w igns p = .ok q)
    (hout : ∀ j q, stepsOn w (igns.take j) p = .ok q → q.1.out = p.1.out) (hcur : p.1.cur ≤ p.1.line.length)
    (hs : Right w base r p.1.line p.1.cur p.2) (hc : Careful w igns p) : Right w base r q.1.line q.1.cur q.2 := by
  induction igns generalizing p with
  | nil => cases h; exact hs
  | cons i is ih =>
    obtain ⟨p1, h1, h2⟩ := stepsOn_cons h
    have shift : ∀ j, stepsOn w ((i :: is).take (j + 1)) p = stepsOn w (is.take j) p1 :=
      fun j => by rw [List.take_succ_cons, stepsOn_cons' h1]
    have at1 : stepsOn w ((i :: is).take 1) p = .ok p1 := by rw [shift 0]; rfl
    obtain ⟨hst, hscr⟩ := stepOn_ok h1
    have ho1 := hout 1 p1 at1
    obtain ⟨c1, r1⟩ := right_step hw hst ho1 hcur hs (hc.visible 1 p1 at1) (hc.moves 0 p p1 rfl at1)
      (hc.recalls 0 p rfl)
    rw [← hscr] at r1
    refine ih p1 h2 (fun j q hq => ?_) c1 r1 ⟨fun j q hq => ?_, fun j q hq => ?_, fun j q q' hq hq' => ?_⟩
    · rw [ho1]
      exact hout (j + 1) q (by rw [shift]; exact hq)
    · exact hc.visible (j + 1) q (by rw [shift]; exact hq)
    · exact hc.recalls (j + 1) q (by rw [shift]; exact hq)
    · exact hc.moves (j + 1) q q' (by rw [shift]; exact hq) (by rw [shift]; exact hq')

/-- C153, as long as keys are `Careful`: whatever is typed, erased, moved and recalled on a terminal of any width, while
the line has not ended the screen shows it behind the prompt and nothing else there, what was above stays, and the
cursor is where the next character goes unless the text before it fills its row.
Missing: `C153_negation_full`, `C153_negation_move`, `C153_negation_end`, `C153_negation_recall`, `C153_negation_bytes`. -/
theorem C153_screen_partial (w : Nat) (hw : 0 < w) (base : Int → Nat → Char) (r : Int) (igns : List Bool)
    (p q : St × Screen) (h : stepsOn w igns p = .ok q)
    (hline : ∀ j q, stepsOn w (igns.take j) p = .ok q → q.1.out = p.1.out)
    (hcur : p.1.cur ≤ p.1.line.length) (hstart : Shown w base r p.1.line p.1.cur p.2)
    (hfull : ¬ Full w p.1.line p.1.cur) (hkeys : Careful w igns p) :
    ShowsText w r (c!">> " ++ q.1.line) q.2 ∧ Untouched base r q.2 ∧
      (¬ Full w q.1.line q.1.cur → CursorAt w r (3 + q.1.cur) q.2) := by
  have := right_steps hw igns p q h hline hcur ⟨hstart.kept hw hcur hfull, fun _ => hstart⟩ hkeys
  exact ⟨this.kept.text, this.kept.above, fun hf => (this.shown hf).cursor⟩

/-- A new terminal of `w` columns: some output `x` in the rows above, the prompt, and a thread that reads a line. -/
def fresh (w : Nat) (h : Hist) (input : Str) : St × Screen :=
  (⟨[], 0, h, input, [], 1⟩, Screen.draw w ⟨fun i _ => if i < 0 then 'x' else ' ', 0, 0, false⟩ [.put '>', .put '>', .put ' '])

/-- Rows of a screen from `r` on. -/
def window (w : Nat) (s : Screen) (r : Int) (n : Nat) : List Str :=
  (List.range n).map fun (i : Nat) => (List.range w).map fun j => s.cell (r + (i : Int)) j

/-- Rows and cursor after some keys. -/
def look (w : Nat) (r : Int) (n : Nat) (p : Res (St × Screen)) : Option (List Str × Int × Nat) :=
  match p with
  | .ok q => some (window w q.2 r n, q.2.row, q.2.col)
  | _ => none

/-- Typing over the end of a row and going back: as it should be. -/
example : look 5 (-1) 3 (stepsOn 5 (List.replicate 6 false) (fresh 5 History.init (c!"abc" ++ [esc] ++ c!"[D" ++ [del] ++ c!"d"))) =
    some ([c!"xxxxx", c!">> ad", c!"c    "], 1, 0) := by decide

/-- The hypotheses of `C153_screen_partial` for it. -/
example : ∃ q, stepsOn 7 [false, false, false] (fresh 7 History.init (c!"a" ++ [esc] ++ c!"[Db")) = .ok q ∧
    Careful 7 [false, false, false] (fresh 7 History.init (c!"a" ++ [esc] ++ c!"[Db")) ∧
    Shown 7 (fun i _ => if i < 0 then 'x' else ' ') 0 [] 0 (fresh 7 History.init (c!"a" ++ [esc] ++ c!"[Db")).2 ∧
    (∀ j q, stepsOn 7 ([false, false, false].take j) (fresh 7 History.init (c!"a" ++ [esc] ++ c!"[Db")) = .ok q →
      q.1.out = []) ∧ ¬ Full 7 [] 0 ∧ q.1.line = c!"ba" := by
  have cell : ∀ i j, (fresh 7 History.init (c!"a" ++ [esc] ++ c!"[Db")).2.cell i j =
      if i = 0 ∧ j = 2 then ' ' else if i = 0 ∧ j = 1 then '>' else if i = 0 ∧ j = 0 then '>' else
        if i < 0 then 'x' else ' ' := fun _ _ => rfl
  refine ⟨_, rfl, ⟨?_, ?_, ?_⟩, ⟨?_, ?_, rfl, rfl, rfl⟩, ?_, by decide, rfl⟩
  · intro j q hq
    match j with
    | 0 => cases hq; decide
    | 1 => cases hq; decide
    | 2 => cases hq; decide
    | j + 3 => rw [List.take_of_length_le (by simp)] at hq; cases hq; decide
  · intro j q hq
    match j with
    | 0 => cases hq; decide
    | 1 => cases hq; decide
    | 2 => cases hq; decide
    | j + 3 => rw [List.take_of_length_le (by simp)] at hq; cases hq; decide
  · intro j q q' hq hq'
    match j with
    | 0 => cases hq; cases hq'; decide
    | 1 => cases hq; cases hq'; decide
    | 2 => cases hq; cases hq'; decide
    | j + 3 =>
      rw [List.take_of_length_le (by simp)] at hq hq'
      cases hq
      cases hq'
      decide
  · intro k
    by_cases hk : k < 3
    · match k, hk with
      | 0, _ => decide
      | 1, _ => decide
      | 2, _ => decide
    · have hd : (['>', '>', ' '] ++ ([] : Str)).getD k ' ' = ' ' := by
        rw [List.getD_eq_getElem?_getD, List.getElem?_eq_none (by simp; omega), Option.getD_none]
      rw [hd, cell]
      split
      · rfl
      · split
        · omega
        · split
          · omega
          · rw [if_neg]
            omega
  · intro i j hi
    rw [cell, if_neg (by omega), if_neg (by omega), if_neg (by omega)]
  · intro j q hq
    match j with
    | 0 => cases hq; rfl
    | 1 => cases hq; rfl
    | 2 => cases hq; rfl
    | j + 3 => rw [List.take_of_length_le (by simp)] at hq; cases hq; rfl

/-- C153 fails for the cursor behind a full row: it is shown at the beginning of this row, over the prompt. -/
theorem C153_negation_full : look 5 0 2 (stepsOn 5 [false, false] (fresh 5 History.init c!"ab")) =
    some ([c!">> ab", c!"     "], 0, 0) := by decide

/-- C153 fails when the cursor is moved from there: the row above the prompt is overwritten with the next key. -/
theorem C153_negation_move : look 5 (-1) 2 (stepsOn 5 (List.replicate 4 false)
    (fresh 5 History.init (c!"ab" ++ [esc] ++ c!"[Dc"))) = some ([c!">> ac", c!"b> ab"], 0, 0) := by decide

/-- C153 fails when the cursor is moved to there: the first row is shown twice after the next key. -/
theorem C153_negation_end : look 5 0 3 (stepsOn 5 (List.replicate 5 false)
    (fresh 5 History.init (c!"a" ++ [esc] ++ c!"[Hb" ++ [esc] ++ c!"[F" ++ [del]))) =
    some ([c!">> ba", c!">> b ", c!"     "], 1, 4) := by decide

/-- C153 fails for a command recalled while the cursor is not in the last row: rows above the prompt are lost. -/
theorem C153_negation_recall : look 5 (-1) 3 (stepsOn 5 (List.replicate 6 false)
    (fresh 5 (History.add History.init c!"q") (c!"abcd" ++ [esc] ++ c!"[H" ++ [esc] ++ c!"[A"))) =
    some ([c!">> q ", c!"     ", c!"cd   "], -1, 4) := by decide

/-- C153 fails for text that is not ASCII: bytes are counted as columns.  After "é" (two bytes) and "a" the cursor is one
column too far, and one key back and another key later the next character breaks the "é" in two. -/
theorem C153_negation_bytes :
    look 9 0 1 (stepsOn 9 (List.replicate 3 false) (fresh 9 History.init [Char.ofNat 0xC3, Char.ofNat 0xA9, 'a'])) =
      some ([c!">> " ++ [Char.ofNat 0xC3] ++ c!"a    "], 0, 6) ∧
    ((match stepsOn 9 (List.replicate 6 false)
      (fresh 9 History.init ([Char.ofNat 0xC3, Char.ofNat 0xA9, 'a'] ++ [esc] ++ c!"[D" ++ [esc] ++ c!"[Db")) with
      | .ok q => q.1.line
      | _ => []) = [Char.ofNat 0xC3, 'b', Char.ofNat 0xA9, 'a']) := by decide

/-! ### The end of a line -/

/-- The next byte ends the line: `\n`, `\r`, or Ctrl+C. -/
def EndsLine (input : Str) : Prop := ∃ c rest, input = c :: rest ∧ (c = '\n' ∨ c = '\r' ∨ c = Char.ofNat 3)

/-- C154, with the cursor in the last row: after Enter or Ctrl+C the cursor is at the beginning of the first row below
the line, and the screen shows what it has shown.  Missing: `C154_negation`. -/
theorem C154_below_partial (w : Nat) (hw : 0 < w) (base : Int → Nat → Char) (r : Int) (ign : Bool) (p q : St × Screen)
    (h : stepOn w ign p = .ok q) (ha : 0 < p.1.active) (he : EndsLine p.1.input)
    (hs : Shown w base r p.1.line p.1.cur p.2) (hcur : p.1.cur ≤ p.1.line.length)
    (hfull : ¬ Full w p.1.line p.1.cur) (hl : LastRow w p.1.line p.1.cur) :
    ShowsText w r (c!">> " ++ p.1.line) q.2 ∧ Untouched base r q.2 ∧
      q.2.row = r + ((3 + p.1.line.length + w - 1) / w : Nat) ∧ q.2.col = 0 ∧ q.2.pend = false := by
  obtain ⟨-, hq⟩ := stepOn_ok h
  have hwr : written w p.1 q.1 = [.nl] := by
    obtain ⟨c, rest, hi, hc⟩ := he
    unfold written
    rw [if_neg (by omega), hi]
    rcases hc with rfl | rfl | rfl
    · rfl
    · rfl
    · rfl
  rw [hwr] at hq
  rw [hq]
  refine ⟨hs.text, hs.above, ?_, rfl, rfl⟩
  show p.2.row + 1 = _
  have := row_le hw hcur hfull
  have := rowsOf_eq w (3 + p.1.line.length) hw (by omega)
  unfold rowsOf at this
  rw [this, hs.cursor.1, show 3 + p.1.line.length - 1 = 2 + p.1.line.length by omega]
  unfold LastRow at hl
  omega

/-- Enter at the end of a line of two rows. -/
example : look 5 0 3 (stepsOn 5 (List.replicate 4 false) (fresh 5 History.init c!"abc\n")) =
    some ([c!">> ab", c!"c    ", c!"     "], 2, 0) := by decide

/-- C154 fails with the cursor in an upper row: what is written next covers the rest of the line. -/
theorem C154_negation : look 5 0 3 (stepsOn 5 (List.replicate 5 false)
    (fresh 5 History.init (c!"abc" ++ [esc] ++ c!"[H\n"))) =
    some ([c!">> ab", c!"c    ", c!"     "], 1, 0) := by decide

end Verif.Editor
