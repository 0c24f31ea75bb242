import Verif.Lemmas.UsageTable
/-!
The lines of a row whose cells fit into their columns.
-/
namespace Verif.Usage
open Verif.Spec.Usage

theorem process_chars_len (t : List Char) (w : Wrapper) (qc : List (List Char)) (hw : Rep w (qc.map utf8)) (hW : 2 ≤ w.width) :
    ∃ ps em qc' w', Wrapped w.width t ps ∧ qc ++ ps = em ++ qc' ∧ w.process (utf8 t) = some (w', utf8 (joinC w.x em)) ∧
      Rep w' (qc'.map utf8) ∧ Same w w' ∧ em.length = min (qc.length + ps.length) (max 1 (qc.length + ps.length - 15)) := by
  obtain ⟨ps, em, q', w', h1, h2, h3, h4, h5, h6⟩ := process_utf8 t w _ hw hW
  rw [← List.map_append, List.map_eq_append_iff] at h2
  obtain ⟨em', q'', h7, h8, h9⟩ := h2
  subst h8 h9
  exact ⟨ps, em', q'', w', h1, h7, by rw [utf8_joinC]; exact h3, h4, h5, by simpa using h6⟩

theorem below_eq (x : Int) (ps : List (List Char)) : below x ps = joinC x ps := by cases ps <;> rfl

theorem alone_eq (x : Int) (ps : List (List Char)) : alone x ps = if ps = [] then [] else indC x ++ joinC x ps ++ ['\n'] := by
  unfold alone
  rw [below_eq]
  rfl

/-- A cell that fits. -/
def FitsCol (l : Layout) (i : Item) : Prop := i.table = true ∧ (i.col < l.last → textWidth i.text ≤ l.widths.getD i.col 0)

/-- The cells after the last column are dropped. -/
theorem rest_dropped (l : Layout) (L : List (Part × Item)) : ∀ (c : Nat) (s : Pr), Run c L → l.last < c →
    (L.map Prod.fst).foldlM (printPart l) s = some s := by
  induction L with
  | nil => intro c s _ _; rfl
  | cons a L ih =>
    intro c s hrun hc
    obtain ⟨p, i⟩ := a
    cases hrun with
    | cons h1 h2 h3 h4 =>
      have : printPart l s p = some s := by unfold printPart; rw [if_pos (by omega)]
      simp only [List.map_cons, List.foldlM_cons, this, Option.bind_eq_bind, Option.bind_some]
      exact ih (c + 1) s h4 (by omega)

/-- The cells from column `c` on. -/
theorem rest_exact (l : Layout) (L : List (Part × Item)) : ∀ (c n : Nat) (s : Pr) (qc : List (List Char)), Run (c + 1) L →
    (∀ x ∈ L, FitsCol l x.2) → s.x = (n : Int) → n ≤ tabstop l.widths (c + 1) → c + 1 ≤ l.last →
    Rep s.lastW (qc.map utf8) → s.lastW.x = (l.width : Int) - l.right → 2 ≤ s.lastW.width →
    ∃ s' em qc', (L.map Prod.fst).foldlM (printPart l) s = some s' ∧
      s'.out = s.out ++ utf8 (sideBySide l.widths l.last (c + 1) (tabstop l.widths (c + 1) - n) (L.map fun x => x.2.text) ++ joinC ((l.width : Int) - l.right) em) ∧
      s'.interW = s.interW ∧ Rep s'.lastW (qc'.map utf8) ∧ Same s.lastW s'.lastW ∧ 0 ≤ s'.x ∧
      ((l.own = true ∨ L.length ≤ l.last - (c + 1)) → em = [] ∧ qc' = qc) ∧
      (l.own = false → l.last - (c + 1) < L.length → ∃ ps, Wrapped s.lastW.width ((L.map fun x => x.2.text).getD (l.last - (c + 1)) []) ps ∧
        qc ++ ps = em ++ qc' ∧ em.length = min (qc.length + ps.length) (max 1 (qc.length + ps.length - 15))) := by
  induction L with
  | nil =>
    intro c n s qc hrun hfit hx hn hc hrep hlx hw
    refine ⟨s, [], qc, rfl, by simp [sideBySide, joinC, utf8_nil], rfl, hrep, ⟨rfl, rfl⟩, by omega, fun _ => ⟨rfl, rfl⟩, ?_⟩
    intro _ h; simp at h
  | cons a L ih =>
    intro c n s qc hrun hfit hx hn hc hrep hlx hw
    obtain ⟨p, i⟩ := a
    cases hrun with
    | cons h1 h2 h3 h4 =>
      have hi : indent s.x (tabstop l.widths (c + 1) : Nat) = (List.replicate (tabstop l.widths (c + 1) - n) 32, (tabstop l.widths (c + 1) : Int)) := by
        rw [hx, indent_nat, if_pos hn]
      obtain ⟨hft, hfw⟩ := hfit (p, i) (by simp)
      by_cases hlt : c + 1 < l.last
      · have hp : printPart l s p = some { s with
            out := s.out ++ List.replicate (tabstop l.widths (c + 1) - n) 32 ++ p.text, x := (tabstop l.widths (c + 1) : Int) + p.width } := by
          unfold printPart
          rw [if_neg (by omega)]
          dsimp only
          rw [h1]
          simp only [show ¬ (c + 1 = 0) by omega, if_false, hi]
          rw [if_pos ⟨hlt, by rw [h2.table]; exact hft⟩]
        have hwid : p.width ≤ l.widths.getD (c + 1) 0 := by
          have := hfw (by rw [← h2.col]; omega)
          rw [h2.width]
          rw [← h2.col, h1] at this
          exact this
        obtain ⟨s', em, qc', g1, g2, g3, g4, g5, g6, g7, g8⟩ := ih (c + 1) (tabstop l.widths (c + 1) + p.width)
          { s with out := s.out ++ List.replicate (tabstop l.widths (c + 1) - n) 32 ++ p.text, x := (tabstop l.widths (c + 1) : Int) + p.width }
          qc h4 (fun x hx => hfit x (List.mem_cons_of_mem _ hx)) (by simp)
          (by rw [tabstop_succ _ (c + 1)]; omega) (by omega) hrep hlx hw
        refine ⟨s', em, qc', ?_, ?_, g3, g4, g5, g6, ?_, ?_⟩
        · simp only [List.map_cons, List.foldlM_cons, hp, Option.bind_eq_bind, Option.bind_some, g1]
        · rw [g2]
          simp only [List.map_cons, sideBySide]
          rw [if_pos hlt, h2.text, h2.width, tabstop_succ l.widths (c + 1)]
          have e : tabstop l.widths (c + 1) + l.widths.getD (c + 1) 0 - (tabstop l.widths (c + 1) + textWidth i.text) = l.widths.getD (c + 1) 0 - textWidth i.text := by
            omega
          rw [e]
          simp only [utf8_append, utf8_spaces, List.append_assoc]
        · intro h
          apply g7
          rcases h with h | h
          · exact .inl h
          · right; simp at h; omega
        · intro ho hlen
          obtain ⟨ps, k1, k2, k3⟩ := g8 ho (by simp at hlen; omega)
          refine ⟨ps, ?_, k2, k3⟩
          have e : l.last - (c + 1) = l.last - (c + 1 + 1) + 1 := by omega
          rw [e, List.map_cons, List.getD_cons_succ]
          exact k1
      · have hlast : l.last = c + 1 := by omega
        cases ho : l.own with
        | true =>
          have hp : printPart l s p = some { s with
              out := s.out ++ List.replicate (tabstop l.widths (c + 1) - n) 32, x := (tabstop l.widths (c + 1) : Int) } := by
            unfold printPart
            rw [if_neg (by omega)]
            dsimp only
            rw [h1]
            simp only [show ¬ (c + 1 = 0) by omega, if_false, hi]
            rw [if_neg (by omega), if_neg (by simp [ho, hlast])]
          refine ⟨{ s with out := s.out ++ List.replicate (tabstop l.widths (c + 1) - n) 32, x := (tabstop l.widths (c + 1) : Int) }, [], qc,
            ?_, ?_, rfl, hrep, ⟨rfl, rfl⟩, by simp, fun _ => ⟨rfl, rfl⟩, by simp⟩
          · simp only [List.map_cons, List.foldlM_cons, hp, Option.bind_eq_bind, Option.bind_some]
            exact rest_dropped l L _ _ h4 (by omega)
          · simp only [List.map_cons, sideBySide]
            rw [if_neg (by omega), if_pos hlast.symm]
            simp only [joinC, List.append_nil, utf8_spaces]
        | false =>
          obtain ⟨ps, em, qc', w', k1, k2, k3, k4, k5, k6⟩ := process_chars_len i.text s.lastW qc hrep hw
          have hp : printPart l s p = some { s with
              out := s.out ++ List.replicate (tabstop l.widths (c + 1) - n) 32 ++ utf8 (joinC s.lastW.x em),
              x := (tabstop l.widths (c + 1) : Int), lastW := w' } := by
            unfold printPart
            rw [if_neg (by omega)]
            dsimp only
            rw [h1]
            simp only [show ¬ (c + 1 = 0) by omega, if_false, hi]
            rw [if_neg (by omega), if_pos (by simp [ho]), h2.text, k3]
            rfl
          refine ⟨{ s with
              out := s.out ++ List.replicate (tabstop l.widths (c + 1) - n) 32 ++ utf8 (joinC s.lastW.x em),
              x := (tabstop l.widths (c + 1) : Int), lastW := w' }, em, qc', ?_, ?_, ?_, ?_, ?_, ?_, ?_, ?_⟩
          · simp only [List.map_cons, List.foldlM_cons, hp, Option.bind_eq_bind, Option.bind_some]
            exact rest_dropped l L _ _ h4 (by omega)
          · simp only [List.map_cons, sideBySide]
            rw [if_neg (by omega), if_pos hlast.symm, hlx]
            simp only [utf8_append, utf8_spaces, List.append_assoc]
          · rfl
          · exact k4
          · exact k5
          · simp
          · intro h; simp at h; omega
          · intro _ _
            refine ⟨ps, ?_, k2, k6⟩
            rw [hlast, Nat.sub_self]
            exact k1

/-- A whole line of a table row. -/
theorem line_exact (l : Layout) (L : List (Part × Item)) (s : Pr) (qc : List (List Char)) (hrun : Run 0 L) (hne : L ≠ [])
    (hfit : ∀ x ∈ L, FitsCol l x.2) (hlast : l.last ≠ 0) (hrep : Rep s.lastW (qc.map utf8))
    (hlx : s.lastW.x = (l.width : Int) - l.right) (hw : 2 ≤ s.lastW.width) :
    ∃ s' em qc', (L.map Prod.fst).foldlM (printPart l) s = some s' ∧
      s'.out = s.out ++ (if s.x ≥ 0 then [10] else []) ++
        utf8 (sideBySide l.widths l.last 0 0 (L.map fun x => x.2.text) ++ joinC ((l.width : Int) - l.right) em) ∧
      s'.interW = s.interW ∧ Rep s'.lastW (qc'.map utf8) ∧ Same s.lastW s'.lastW ∧ 0 ≤ s'.x ∧
      ((l.own = true ∨ L.length ≤ l.last) → em = [] ∧ qc' = qc) ∧
      (l.own = false → l.last < L.length → ∃ ps, Wrapped s.lastW.width ((L.map fun x => x.2.text).getD l.last []) ps ∧
        qc ++ ps = em ++ qc' ∧ em.length = min (qc.length + ps.length) (max 1 (qc.length + ps.length - 15))) := by
  cases hrun with
  | nil => exact absurd rfl hne
  | @cons _ p i L h1 h2 h3 h4 =>
    obtain ⟨hft, hfw⟩ := hfit (p, i) (by simp)
    have hp : printPart l s p = some { s with
        out := s.out ++ (if s.x ≥ 0 then [10] else []) ++ p.text, x := (p.width : Int) } := by
      unfold printPart
      rw [if_neg (by omega)]
      dsimp only
      rw [h1]
      have hi : indent 0 ((tabstop l.widths 0 : Nat) : Int) = ([], 0) := by rw [tabstop_zero]; decide
      simp only [if_true, hi]
      rw [if_pos ⟨by omega, by rw [h2.table]; exact hft⟩]
      simp
    have hwid : p.width ≤ l.widths.getD 0 0 := by
      have := hfw (by rw [← h2.col]; omega)
      rw [h2.width]
      rw [← h2.col, h1] at this
      exact this
    obtain ⟨s', em, qc', g1, g2, g3, g4, g5, g6, g7, g8⟩ := rest_exact l L 0 p.width
      { s with out := s.out ++ (if s.x ≥ 0 then [10] else []) ++ p.text, x := (p.width : Int) }
      qc h4 (fun x hx => hfit x (List.mem_cons_of_mem _ hx)) rfl
      (by rw [tabstop_succ, tabstop_zero]; omega) (by omega) hrep hlx hw
    refine ⟨s', em, qc', ?_, ?_, g3, g4, g5, g6, ?_, ?_⟩
    · simp only [List.map_cons, List.foldlM_cons, hp, Option.bind_eq_bind, Option.bind_some, g1]
    · rw [g2]
      simp only [List.map_cons, sideBySide]
      rw [if_pos (show 0 < l.last by omega), h2.text, h2.width, tabstop_succ l.widths 0, tabstop_zero, Nat.zero_add]
      simp only [utf8_append, List.append_assoc, List.replicate_zero, List.nil_append, Nat.zero_add]
    · intro h
      apply g7
      rcases h with h | h
      · exact .inl h
      · right; simp at h; omega
    · intro ho hlen
      obtain ⟨ps, k1, k2, k3⟩ := g8 ho (by simp at hlen; omega)
      refine ⟨ps, ?_, k2, k3⟩
      have e : l.last = l.last - (0 + 1) + 1 := by omega
      rw [e, List.map_cons, List.getD_cons_succ]
      exact k1

/-! ### Spreading -/

/-- `Spread` with pieces in the queue at the beginning. -/
structure SpreadQ (W : Nat) (texts : List (List Char)) (q : List (List Char)) (ls ems : List (List (List Char))) (rest : List (List Char)) : Prop where
  len : ls.length = texts.length ∧ ems.length = texts.length
  wrapped : ∀ (t : Nat) (x : List Char) (l : List (List Char)), texts[t]? = some x → ls[t]? = some l → Wrapped W x l
  all : ems.flatten ++ rest = q ++ ls.flatten
  shown : ∀ (t : Nat) (em : List (List Char)), ems[t]? = some em →
    em.length = min (q.length + (ls.take (t + 1)).flatten.length - (ems.take t).flatten.length)
      (max 1 (q.length + (ls.take (t + 1)).flatten.length - (ems.take t).flatten.length - 15))

theorem spread_nil (W : Nat) (q : List (List Char)) : SpreadQ W [] q [] [] q :=
  ⟨by simp, by simp, by simp, by simp⟩

theorem spread_cons {W : Nat} {x : List Char} {texts q ps em q' rest : List (List Char)} {ls ems : List (List (List Char))}
    (hw : Wrapped W x ps) (hq : q ++ ps = em ++ q') (hl : em.length = min (q.length + ps.length) (max 1 (q.length + ps.length - 15)))
    (h : SpreadQ W texts q' ls ems rest) : SpreadQ W (x :: texts) q (ps :: ls) (em :: ems) rest := by
  have hlen : q.length + ps.length = em.length + q'.length := by
    have := congrArg List.length hq
    simpa using this
  refine ⟨by simp [h.len], ?_, ?_, ?_⟩
  · intro t y l hy hl
    cases t with
    | zero => simp at hy hl; subst hy hl; exact hw
    | succ t => exact h.wrapped t y l (by simpa using hy) (by simpa using hl)
  · rw [List.flatten_cons, List.append_assoc, h.all, List.flatten_cons, ← List.append_assoc, ← hq, List.append_assoc]
  · intro t e he
    cases t with
    | zero =>
      simp at he
      subst he
      simpa using hl
    | succ t =>
      have := h.shown t e (by simpa using he)
      rw [this]
      simp only [List.take_succ_cons, List.flatten_cons, List.length_append]
      have e1 : q.length + (ps.length + (ls.take (t + 1)).flatten.length) - (em.length + (ems.take t).flatten.length) =
          q'.length + (ls.take (t + 1)).flatten.length - (ems.take t).flatten.length := by omega
      rw [e1]

/-- The lines with what they show of the last column. -/
def linesText (l : Layout) (Ls : List (List (Part × Item))) (ems : List (List (List Char))) : List Char :=
  (Ls.zip ems).flatMap fun x => sideBySide l.widths l.last 0 0 (x.1.map fun y => y.2.text) ++ joinC ((l.width : Int) - l.right) x.2 ++ ['\n']

/-- What is in the output after some lines: the last line break is still to come. -/
theorem lines_exact (l : Layout) (hlast : l.last ≠ 0) (Ls : List (List (Part × Item))) : ∀ (s : Pr) (qc : List (List Char)) (o : List Char) (prev : Bytes),
    (∀ L ∈ Ls, Run 0 L ∧ L ≠ []) → (∀ L ∈ Ls, ∀ x ∈ L, FitsCol l x.2) → Rep s.lastW (qc.map utf8) →
    s.lastW.x = (l.width : Int) - l.right → 2 ≤ s.lastW.width → s.out ++ (if s.x ≥ 0 then [10] else []) = prev ++ utf8 o →
    ∃ s' ls ems qc', (Ls.flatten.map Prod.fst).foldlM (printPart l) s = some s' ∧
      s'.out ++ (if s'.x ≥ 0 then [10] else []) = prev ++ utf8 (o ++ linesText l Ls ems) ∧
      s'.interW = s.interW ∧ Rep s'.lastW (qc'.map utf8) ∧ Same s.lastW s'.lastW ∧ (Ls ≠ [] → 0 ≤ s'.x) ∧ ems.length = Ls.length ∧
      ((l.own = true ∨ ∀ L ∈ Ls, L.length ≤ l.last) → (∀ em ∈ ems, em = []) ∧ qc' = qc) ∧
      (l.own = false → (∀ L ∈ Ls, l.last < L.length) →
        SpreadQ s.lastW.width (Ls.map fun L => (L.map fun x => x.2.text).getD l.last []) qc ls ems qc') := by
  induction Ls with
  | nil =>
    intro s qc o prev _ _ hrep hlx hw ho
    exact ⟨s, [], [], qc, rfl, by simpa [linesText] using ho, rfl, hrep, ⟨rfl, rfl⟩, by simp, rfl, fun _ => ⟨by simp, rfl⟩,
      fun _ _ => spread_nil _ _⟩
  | cons L Ls ih =>
    intro s qc o prev hrun hfit hrep hlx hw ho
    obtain ⟨s1, em, qc1, g1, g2, g3, g4, g5, g6, g7, g8⟩ := line_exact l L s qc (hrun L (by simp)).1 (hrun L (by simp)).2 (hfit L (by simp))
      hlast hrep hlx hw
    rw [ho] at g2
    obtain ⟨s2, ls, ems, qc2, k1, k2, k3, k4, k5, k6, k7, k8, k9⟩ := ih s1 qc1
      (o ++ (sideBySide l.widths l.last 0 0 (L.map fun x => x.2.text) ++ joinC ((l.width : Int) - l.right) em) ++ ['\n']) prev
      (fun M hM => hrun M (List.mem_cons_of_mem _ hM)) (fun M hM => hfit M (List.mem_cons_of_mem _ hM)) g4 (g5.1.trans hlx)
      (by rw [g5.2]; exact hw) (by
        rw [if_pos g6, g2]
        simp only [utf8_append, utf8_nl, List.append_assoc])
    obtain ⟨ps, hps⟩ : ∃ ps, l.own = false → l.last < L.length → Wrapped s.lastW.width ((L.map fun x => x.2.text).getD l.last []) ps ∧
        qc ++ ps = em ++ qc1 ∧ em.length = min (qc.length + ps.length) (max 1 (qc.length + ps.length - 15)) := by
      by_cases h : l.own = false ∧ l.last < L.length
      · obtain ⟨ps, h1⟩ := g8 h.1 h.2
        exact ⟨ps, fun _ _ => h1⟩
      · exact ⟨[], fun a b => absurd ⟨a, b⟩ h⟩
    refine ⟨s2, ps :: ls, em :: ems, qc2, ?_, ?_, k3.trans g3, k4, ⟨k5.1.trans g5.1, k5.2.trans g5.2⟩, ?_, by simp [k7], ?_, ?_⟩
    · simp only [List.flatten_cons, List.map_append, List.foldlM_append, g1, Option.bind_eq_bind, Option.bind_some, k1]
    · rw [k2]
      simp [linesText]
    · intro _
      by_cases hz : Ls = []
      · subst hz
        simp only [List.flatten_nil, List.map_nil, List.foldlM_nil] at k1
        obtain rfl := Option.some.inj k1
        exact g6
      · exact k6 hz
    · intro h
      obtain ⟨a1, a2⟩ := g7 (by rcases h with h | h; exact .inl h; exact .inr (h L (by simp)))
      obtain ⟨b1, b2⟩ := k8 (by rcases h with h | h; exact .inl h; exact .inr fun M hM => h M (by simp [hM]))
      refine ⟨?_, b2.trans a2⟩
      intro e he
      rcases List.mem_cons.1 he with he | he
      · exact he.trans a1
      · exact b1 e he
    · intro ho' hlen
      obtain ⟨c1, c2, c3⟩ := hps ho' (hlen L (by simp))
      have := k9 ho' fun M hM => hlen M (by simp [hM])
      rw [g5.2] at this
      rw [List.map_cons]
      exact spread_cons c1 c2 c3 this

/-- Those cells of the last column that get lines of their own. -/
def lastTexts (l : Layout) (L : List (Part × Item)) : List (List Char) := (L.filter fun x => x.1.col = l.last).map fun x => x.2.text

theorem owns_exact (l : Layout) (L : List (Part × Item)) : ∀ (s : Pr) (qc : List (List Char)) (o : List Char) (prev : Bytes),
    (∀ x ∈ L, Corr x.1 x.2) → Rep s.lastW (qc.map utf8) → s.lastW.x = (l.width : Int) - l.right → 2 ≤ s.lastW.width →
    s.out ++ [10] = prev ++ utf8 o →
    ∃ s' ls ems qc', (L.map Prod.fst).foldlM (printOwn l) s = some s' ∧
      s'.out ++ [10] = prev ++ utf8 (o ++ ems.flatMap fun em => indC ((l.width : Int) - l.right) ++ joinC ((l.width : Int) - l.right) em ++ ['\n']) ∧
      s'.interW = s.interW ∧ Rep s'.lastW (qc'.map utf8) ∧ Same s.lastW s'.lastW ∧
      SpreadQ s.lastW.width (lastTexts l L) qc ls ems qc' := by
  induction L with
  | nil =>
    intro s qc o prev _ hrep hlx hw ho
    exact ⟨s, [], [], qc, rfl, by simpa using ho, rfl, hrep, ⟨rfl, rfl⟩, spread_nil _ _⟩
  | cons a L ih =>
    intro s qc o prev hcorr hrep hlx hw ho
    obtain ⟨p, i⟩ := a
    have hc : Corr p i := hcorr (p, i) (by simp)
    by_cases h1 : p.col = l.last
    · obtain ⟨ps, em, qc1, w', k1, k2, k3, k4, k5, k6⟩ := process_chars_len i.text s.lastW qc hrep hw
      have hp : printOwn l s p = some { s with
          out := s.out ++ [10] ++ ind ((l.width : Int) - l.right) ++ utf8 (joinC s.lastW.x em), lastW := w' } := by
        unfold printOwn
        rw [if_pos h1, hc.text, k3]
        rfl
      obtain ⟨s2, ls, ems, qc2, m1, m2, m3, m4, m5, m6⟩ := ih { s with
          out := s.out ++ [10] ++ ind ((l.width : Int) - l.right) ++ utf8 (joinC s.lastW.x em), lastW := w' } qc1
        (o ++ (indC ((l.width : Int) - l.right) ++ joinC ((l.width : Int) - l.right) em ++ ['\n'])) prev
        (fun x hx => hcorr x (List.mem_cons_of_mem _ hx)) k4 (k5.1.trans hlx) (by rw [k5.2]; exact hw) (by
          simp only [ho, hlx, utf8_append, utf8_indC, utf8_nl, List.append_assoc])
      refine ⟨s2, ps :: ls, em :: ems, qc2, ?_, ?_, m3, m4, ⟨m5.1.trans k5.1, m5.2.trans k5.2⟩, ?_⟩
      · simp only [List.map_cons, List.foldlM_cons, hp, Option.bind_eq_bind, Option.bind_some, m1]
      · rw [m2]; simp
      · have e : lastTexts l ((p, i) :: L) = i.text :: lastTexts l L := by simp [lastTexts, h1]
        rw [e]
        rw [k5.2] at m6
        exact spread_cons k1 k2 k6 m6
    · have hp : printOwn l s p = some s := by unfold printOwn; rw [if_neg h1]
      obtain ⟨s2, ls, ems, qc2, m1, m2, m3, m4, m5, m6⟩ := ih s qc o prev (fun x hx => hcorr x (List.mem_cons_of_mem _ hx)) hrep hlx hw ho
      refine ⟨s2, ls, ems, qc2, ?_, m2, m3, m4, m5, ?_⟩
      · simp only [List.map_cons, List.foldlM_cons, hp, Option.bind_eq_bind, Option.bind_some, m1]
      · have e : lastTexts l ((p, i) :: L) = lastTexts l L := by simp [lastTexts, h1]
        rw [e]
        exact m6

theorem lastTexts_append (l : Layout) (L M : List (Part × Item)) : lastTexts l (L ++ M) = lastTexts l L ++ lastTexts l M := by
  simp [lastTexts]

theorem run_cols {c : Nat} {L : List (Part × Item)} (h : Run c L) : ∀ x ∈ L, c ≤ x.1.col := by
  induction h with
  | nil => simp
  | cons h1 h2 h3 h4 ih =>
    intro x hx
    rcases List.mem_cons.1 hx with h | h
    · subst h; simp [h1]
    · have := ih x h; omega

theorem lastTexts_run (l : Layout) (L : List (Part × Item)) : ∀ c, Run c L → c ≤ l.last →
    lastTexts l L = if l.last - c < L.length then [(L.map fun x => x.2.text).getD (l.last - c) []] else [] := by
  induction L with
  | nil => intro c _ _; simp [lastTexts]
  | cons a L ih =>
    intro c h hc
    cases h with
    | @cons _ p i _ h1 h2 h3 h4 =>
      by_cases hq : c = l.last
      · subst hq
        have : lastTexts l L = [] := by
          unfold lastTexts
          rw [List.map_eq_nil_iff, List.filter_eq_nil_iff]
          intro x hx
          have := run_cols h4 x hx
          simp
          omega
        rw [show (p, i) :: L = [(p, i)] ++ L from rfl, lastTexts_append, this]
        simp [lastTexts, h1]
      · have h5 := ih (c + 1) h4 (by omega)
        rw [show (p, i) :: L = [(p, i)] ++ L from rfl, lastTexts_append, h5]
        have : lastTexts l [(p, i)] = [] := by simp [lastTexts, h1, hq]
        rw [this]
        have e : l.last - c = l.last - (c + 1) + 1 := by omega
        rw [e]
        simp

theorem spread_of {W : Nat} {texts : List (List Char)} {ls ems : List (List (List Char))} {rest : List (List Char)}
    (h : SpreadQ W texts [] ls ems rest) : Spread W texts ls ems rest :=
  ⟨h.len, h.wrapped, by simpa using h.all, by simpa using h.shown⟩

theorem zip_flatMap_nil {α β : Type} (f : α → List Char) (g : β → List Char) (as : List α) (bs : List β) (hl : bs.length = as.length)
    (hg : ∀ b ∈ bs, g b = []) : ((as.zip bs).flatMap fun x => f x.1 ++ g x.2 ++ ['\n']) = as.flatMap fun a => f a ++ ['\n'] := by
  induction as generalizing bs with
  | nil => simp
  | cons a as ih =>
    cases bs with
    | nil => simp at hl
    | cons b bs =>
      rw [List.zip_cons_cons, List.flatMap_cons, List.flatMap_cons, ih bs (by simpa using hl) fun b hb => hg b (List.mem_cons_of_mem _ hb)]
      simp [hg b (by simp)]

/-- One table row whose cells fit, in full. -/
theorem printRow_exact (l : Layout) (hlast : l.last ≠ 0) (eb : Nat) (heb : eb = 0 ∨ eb = 10) (row : List Char) (hok : RowOk row)
    (hfit : ∀ i ∈ grid row, FitsCol l i) (LW IW : Nat) (hLW : 2 ≤ LW) (s : Pr) (h : Between l LW IW s) :
    ∃ s' ro, printRow l s ((rowPairs eb row).flatten.map Prod.fst) = some s' ∧ s'.out = s.out ++ utf8 ro ∧
      RowLines LW l.last l.widths ((l.width : Int) - l.right) l.own row ro := by
  have hrun := rowPairs_run eb heb row hok
  have hcorr := rowPairs_corr eb heb row hok
  have hfit' : ∀ L ∈ rowPairs eb row, ∀ x ∈ L, FitsCol l x.2 := by
    intro L hL x hx
    apply hfit
    rw [← rowPairs_snd eb row]
    exact List.mem_map.2 ⟨x, List.mem_flatten.2 ⟨L, hL, hx⟩, rfl⟩
  -- the texts of a line
  have htexts : ∀ T, (linePairs T eb (tableRow row) 0 (cell0 row) (cellsT row)).map (fun x => x.2.text) = lineOf row T := by
    intro T
    have h1 := congrArg (List.map Item.text) (linePairs_snd T eb (tableRow row) 0 (cell0 row) (cellsT row))
    rw [List.map_map] at h1
    rw [show (fun x : Part × Item => x.2.text) = Item.text ∘ Prod.snd from rfl, h1, cells_eq]
    unfold lineOf
    apply List.ext_getElem
    · simp
    · intro n a1 a2
      simp only [List.getElem_map, List.getElem_mapIdx]
      unfold pieceAt
      rw [toCell_eq]
      have : (cells row)[n]'(by simpa using a2) ∈ cells row := List.getElem_mem _
      obtain ⟨t, -, e⟩ := List.mem_map.1 this
      rw [← e]
      exact split_ne _ _
  have hlenL : ∀ L ∈ rowPairs eb row, L.length = (cells row).length := by
    intro L hL
    obtain ⟨T, -, rfl⟩ := List.mem_map.1 hL
    have := congrArg List.length (htexts T)
    simpa [lineOf] using this
  have hlenLs : (rowPairs eb row).length = height row := by simp [rowPairs, height_eq]
  obtain ⟨s1, ls, ems, qc1, g1, g2, g3, g4, g5, g6, g7, g8, g9⟩ := lines_exact l hlast (rowPairs eb row) { s with x := -1 } [] [] s.out
    hrun hfit' h.lrep h.lx (by rw [h.lw]; exact hLW) (by simp [utf8_nil])
  have hne : rowPairs eb row ≠ [] := by
    intro e
    rw [e] at hlenLs
    rw [height_eq] at hlenLs
    simp at hlenLs
  rw [if_pos (g6 hne), List.nil_append] at g2
  -- rewriting the lines
  have hlines : ∀ ems : List (List (List Char)), ems.length = (rowPairs eb row).length → linesText l (rowPairs eb row) ems =
      (List.range (height row)).flatMap fun t => sideBySide l.widths l.last 0 0 (lineOf row t) ++ joinC ((l.width : Int) - l.right) (ems.getD t []) ++ ['\n'] := by
    intro ems hems
    unfold linesText
    have : (rowPairs eb row).zip ems = (List.range (height row)).map fun t =>
        (linePairs t eb (tableRow row) 0 (cell0 row) (cellsT row), ems.getD t []) := by
      apply List.ext_getElem
      · simp [hems, hlenLs]
      · intro n a1 a2
        have hn : n < ems.length := by rw [hems, hlenLs]; simpa using a2
        simp only [List.getElem_zip, List.getElem_map, List.getElem_range, Prod.mk.injEq]
        refine ⟨by simp [rowPairs], ?_⟩
        simp [hn]
    rw [this, List.flatMap_map]
    simp only [htexts]
  have hlines0 : linesText l (rowPairs eb row) ems = (List.range (height row)).flatMap (fun t => sideBySide l.widths l.last 0 0 (lineOf row t) ++ ['\n']) ∨
      ¬ ∀ em ∈ ems, em = [] := by
    by_cases hz : ∀ em ∈ ems, em = []
    · left
      rw [hlines ems g7]
      congr 1
      funext t
      have : ems.getD t [] = [] := by
        rw [List.getD_eq_getElem?_getD]
        cases hq : ems[t]? with
        | none => rfl
        | some e => exact hz e (List.mem_of_getElem? hq)
      rw [this]
      simp [joinC]
    · exact .inr hz
  -- the flush of the other wrapper
  have hirep : s1.interW.flush = some (s1.interW, []) := by
    have : s1.interW.isEmpty = true := by
      rw [g3]
      exact h.irep.isEmpty
    unfold Wrapper.flush
    rw [if_pos this]
  unfold RowLines
  by_cases hcells : l.last < (cells row).length
  · simp only [if_pos hcells]
    cases ho : l.own with
    | false =>
      have hs := spread_of (g9 ho fun L hL => by rw [hlenL L hL]; exact hcells)
      obtain ⟨w1, m1, m2, m3⟩ := flush_chars s1.lastW qc1 g4
      refine ⟨{ s1 with
        out := s1.out ++ [10] ++ utf8 (if qc1 = [] then [] else indC s1.lastW.x ++ joinC s1.lastW.x qc1 ++ ['\n']) ++ [], lastW := w1 },
        _, ?_, ?_, ls, ems, qc1, ?_, rfl⟩
      · unfold printRow
        simp only [g1, Option.bind_eq_bind, Option.bind_some, ho, Bool.false_eq_true, if_false, m1, hirep]
      · show s1.out ++ [10] ++ utf8 _ ++ [] = _
        rw [List.append_nil, g2, hlines ems g7, g5.1, h.lx, ← alone_eq]
        simp only [Bool.false_eq_true, if_false, below_eq, utf8_append, List.append_assoc]
      · have e : (rowPairs eb row).map (fun L => (L.map fun x => x.2.text).getD l.last []) = (List.range (height row)).map fun t => (lineOf row t).getD l.last [] := by
          unfold rowPairs
          rw [List.map_map, ← height_eq]
          congr 1
          funext T
          simp only [Function.comp_apply, htexts]
        rw [e, h.lw] at hs
        exact hs
    | true =>
      obtain ⟨z1, z2⟩ := g8 (.inl ho)
      subst z2
      obtain ⟨s2, ls2, ems2, qc2, n1, n2, n3, n4, n5, n6⟩ := owns_exact l (rowPairs eb row).flatten s1 []
        (linesText l (rowPairs eb row) ems) s.out hcorr g4 (g5.1.trans h.lx) (by rw [g5.2, h.lw]; exact hLW) g2
      obtain ⟨w1, m1, m2, m3⟩ := flush_chars s2.lastW qc2 n4
      have hirep2 : s2.interW.flush = some (s1.interW, []) := by rw [n3]; exact hirep
      refine ⟨{ s2 with
        out := s2.out ++ [10] ++ utf8 (if qc2 = [] then [] else indC s2.lastW.x ++ joinC s2.lastW.x qc2 ++ ['\n']) ++ [], lastW := w1, interW := s1.interW },
        _, ?_, ?_, ls2, ems2, qc2, ?_, rfl⟩
      · unfold printRow
        simp only [g1, Option.bind_eq_bind, Option.bind_some, ho, if_true, n1, m1, hirep2]
      · show s2.out ++ [10] ++ utf8 _ ++ [] = _
        have e0 : linesText l (rowPairs eb row) ems = (List.range (height row)).flatMap (fun t => sideBySide l.widths l.last 0 0 (lineOf row t) ++ ['\n']) := by
          rcases hlines0 with h0 | h0
          · exact h0
          · exact absurd z1 h0
        rw [List.append_nil, n2, e0, n5.1, g5.1, h.lx, ← alone_eq]
        simp only [if_true, below_eq, utf8_append, List.append_assoc]
        rfl
      · have e : lastTexts l (rowPairs eb row).flatten = (List.range (height row)).map fun t => (lineOf row t).getD l.last [] := by
          have hgen : ∀ Ls : List (List (Part × Item)), (∀ L ∈ Ls, Run 0 L ∧ l.last < L.length) →
              lastTexts l Ls.flatten = Ls.map fun L => (L.map fun x => x.2.text).getD l.last [] := by
            intro Ls
            induction Ls with
            | nil => intro _; rfl
            | cons L Ls ih =>
              intro hLs
              obtain ⟨p1, p2⟩ := hLs L (by simp)
              rw [List.flatten_cons, lastTexts_append, ih fun M hM => hLs M (by simp [hM]), lastTexts_run l L 0 p1 (by omega),
                if_pos (by omega)]
              simp
          rw [hgen _ fun L hL => ⟨(hrun L hL).1, by rw [hlenL L hL]; exact hcells⟩]
          unfold rowPairs
          rw [List.map_map, ← height_eq]
          congr 1
          funext T
          simp only [Function.comp_apply, htexts]
        have hs := spread_of n6
        rw [e, g5.2] at hs
        have : ({ s with x := -1 } : Pr).lastW.width = LW := h.lw
        rw [this] at hs
        exact hs
  · simp only [if_neg hcells]
    obtain ⟨z1, z2⟩ := g8 (.inr fun L hL => by rw [hlenL L hL]; omega)
    subst z2
    have e0 : linesText l (rowPairs eb row) ems = (List.range (height row)).flatMap (fun t => sideBySide l.widths l.last 0 0 (lineOf row t) ++ ['\n']) := by
      rcases hlines0 with h0 | h0
      · exact h0
      · exact absurd z1 h0
    have hown : ((rowPairs eb row).flatten.map Prod.fst).foldlM (printOwn l) s1 = some s1 := by
      have hgen : ∀ ps : List Part, (∀ p ∈ ps, p.col ≠ l.last) → ps.foldlM (printOwn l) s1 = some s1 := by
        intro ps
        induction ps with
        | nil => intro _; rfl
        | cons p ps ih =>
          intro hps
          have : printOwn l s1 p = some s1 := by unfold printOwn; rw [if_neg (hps p (by simp))]
          simp only [List.foldlM_cons, this, Option.bind_eq_bind, Option.bind_some]
          exact ih fun q hq => hps q (by simp [hq])
      apply hgen
      intro p hp
      obtain ⟨x, hx, rfl⟩ := List.mem_map.1 hp
      obtain ⟨L, hL, hx⟩ := List.mem_flatten.1 hx
      have h1 := lastTexts_run l L 0 (hrun L hL).1 (by omega)
      rw [if_neg (by rw [hlenL L hL]; omega)] at h1
      unfold lastTexts at h1
      rw [List.map_eq_nil_iff, List.filter_eq_nil_iff] at h1
      have := h1 x hx
      simpa using this
    obtain ⟨w1, m1, m2, m3⟩ := flush_chars s1.lastW [] g4
    rw [if_pos rfl, utf8_nil] at m1
    refine ⟨{ s1 with out := s1.out ++ [10] ++ [] ++ [], lastW := w1 }, _, ?_, ?_, rfl⟩
    · unfold printRow
      simp only [g1, Option.bind_eq_bind, Option.bind_some]
      split
      · simp only [hown, Option.bind_some, m1, hirep]
      · simp only [m1, Option.bind_some, hirep]
    · show s1.out ++ [10] ++ [] ++ [] = _
      rw [List.append_nil, List.append_nil, g2, e0]

end Verif.Usage
