/- Helper lemmas on grouping by day. -/
import Verif.Model.ExperimentData
import Verif.Lemmas.Sort
import Verif.Lemmas.Dict
import Verif.Lemmas.Mapping

namespace DynCF
variable {K : Type}

/-! ### Sorted distinct keys, partition by a key -/

theorem intLe_sorted (l : List ℤ) : (stableSort (fun a b => decide (a ≤ b)) (pdUnique l)).Pairwise (· < ·) := by
  have h1 := stableSort_sorted (le := fun a b : ℤ => decide (a ≤ b))
    (by intro a b c; simp only [decide_eq_true_eq]; omega)
    (by intro a b; simp only [decide_eq_true_eq]; omega) (pdUnique l)
  have h2 : (stableSort (fun a b : ℤ => decide (a ≤ b)) (pdUnique l)).Nodup :=
    (stableSort_perm _ _).nodup_iff.2 (nodup_pdUnique _)
  refine (h1.and h2).imp ?_
  rintro a b ⟨h, hne⟩
  have h' : a ≤ b := by simpa using h
  have hne' : a ≠ b := hne
  omega

theorem groupDays_sorted (df : List (Row K)) : (groupDays df).Pairwise (· < ·) := intLe_sorted _

theorem mem_groupDays (df : List (Row K)) (d : ℤ) : d ∈ groupDays df ↔ ∃ r ∈ df, r.day = d := by
  unfold groupDays
  rw [mem_stableSort, mem_pdUnique, List.mem_map]

theorem flatMap_filter_perm {α β : Type} [DecidableEq β] (key : α → β) (l : List α) (ks : List β)
    (hks : ks.Nodup) :
    (ks.flatMap fun k => l.filter fun a => decide (key a = k)).Perm
      (l.filter fun a => decide (key a ∈ ks)) := by
  induction ks with
  | nil => simp
  | cons k ks ih =>
    rw [List.nodup_cons] at hks
    rw [List.flatMap_cons]
    refine ((ih hks.2).append_left _).trans ?_
    have h := List.filter_append_perm (fun a => decide (key a = k))
      (l.filter fun a => decide (key a ∈ k :: ks))
    refine List.Perm.trans (List.Perm.of_eq ?_) h
    rw [List.filter_filter, List.filter_filter]
    congr 1
    · apply List.filter_congr
      intro a _
      by_cases e : key a = k <;> simp [e]
    · apply List.filter_congr
      intro a _
      by_cases e : key a = k
      · simp [e, hks.1]
      · simp [e]

theorem groupByDay_perm (df : List (Row K)) : ((groupByDay df).flatMap Prod.snd).Perm df := by
  unfold groupByDay
  rw [List.flatMap_map]
  refine (flatMap_filter_perm Row.day df (groupDays df) ?_).trans (List.Perm.of_eq ?_)
  · exact (groupDays_sorted df).imp fun h => ne_of_lt h
  · rw [List.filter_eq_self]
    intro r hr
    simpa using (mem_groupDays df r.day).2 ⟨r, hr, rfl⟩

/-! ### The grouping loop -/

/-- number of actions of a block of days -/
def actions (b : List (ℤ × ℕ)) : ℤ := ((b.map Prod.snd).sum : ℕ)

theorem actions_nil : actions [] = 0 := rfl
theorem actions_append_one (b : List (ℤ × ℕ)) (p : ℤ × ℕ) : actions (b ++ [p]) = actions b + p.2 := by
  simp [actions]

/-- cutting a sequence of days: a block is closed as soon as it has more than `hm` actions;
`cur` is the open block -/
def blocksFrom (hm : ℤ) : List (ℤ × ℕ) → List (ℤ × ℕ) → List (List (ℤ × ℕ))
  | cur, [] => if cur = [] then [] else [cur]
  | cur, p :: rest =>
    if hm < actions (cur ++ [p]) then (cur ++ [p]) :: blocksFrom hm [] rest
    else blocksFrom hm (cur ++ [p]) rest

/-- first day of a block -/
def firstDay (b : List (ℤ × ℕ)) : ℤ := (b.map Prod.fst).headD 0

theorem firstDay_append (b c : List (ℤ × ℕ)) (h : b ≠ []) : firstDay (b ++ c) = firstDay b := by
  cases b with
  | nil => exact absurd rfl h
  | cons p b => rfl

/-- labels given to the days `rest` while the block `cur` is open -/
def rawLabels (hm : ℤ) : List (ℤ × ℕ) → List (ℤ × ℕ) → List ℤ
  | _, [] => []
  | cur, p :: rest => firstDay (cur ++ [p]) ::
      rawLabels hm (if hm < actions (cur ++ [p]) then [] else cur ++ [p]) rest

theorem blocksFrom_flatten (hm : ℤ) (cur rest : List (ℤ × ℕ)) :
    (blocksFrom hm cur rest).flatten = cur ++ rest := by
  induction rest generalizing cur with
  | nil => unfold blocksFrom; split <;> simp_all
  | cons p rest ih =>
    unfold blocksFrom
    split
    · rw [List.flatten_cons, ih]; simp
    · rw [ih]; simp

theorem blocksFrom_labels (hm : ℤ) (cur rest : List (ℤ × ℕ)) :
    (blocksFrom hm cur rest).flatMap (fun b => b.map fun _ => firstDay b) =
      cur.map (fun _ => firstDay cur) ++ rawLabels hm cur rest := by
  induction rest generalizing cur with
  | nil => unfold blocksFrom rawLabels; split <;> simp_all
  | cons p rest ih =>
    unfold blocksFrom rawLabels
    have e : cur.map (fun _ => firstDay (cur ++ [p])) = cur.map (fun _ => firstDay cur) := by
      cases cur with
      | nil => rfl
      | cons q cur => rw [firstDay_append _ _ (by simp)]
    split
    · rw [List.flatMap_cons, ih, List.map_append, e]
      simp
    · rw [ih, List.map_append, e]
      simp

theorem blocksFrom_ne_nil (hm : ℤ) (cur rest : List (ℤ × ℕ)) :
    ∀ b ∈ blocksFrom hm cur rest, b ≠ [] := by
  induction rest generalizing cur with
  | nil =>
    intro b hb
    unfold blocksFrom at hb
    split at hb
    · cases hb
    · rename_i hc
      rw [List.mem_singleton] at hb
      rw [hb]; exact hc
  | cons p rest ih =>
    intro b hb
    unfold blocksFrom at hb
    split at hb
    · rcases List.mem_cons.1 hb with rfl | hb
      · simp
      · exact ih _ b hb
    · exact ih _ b hb

theorem blocksFrom_eq_nil (hm : ℤ) (cur rest : List (ℤ × ℕ)) (h : blocksFrom hm cur rest = []) :
    cur = [] ∧ rest = [] := by
  have := blocksFrom_flatten hm cur rest
  rw [h, List.flatten_nil] at this
  exact List.append_eq_nil_iff.1 this.symm

/-- every block but the last is large, and becomes so only with its last day -/
theorem blocksFrom_sizes (hm : ℤ) (cur rest : List (ℤ × ℕ))
    (hc : cur = [] ∨ ∀ q, q <+: cur → q ≠ [] → actions q ≤ hm) :
    (∀ b ∈ (blocksFrom hm cur rest).dropLast, hm < actions b) ∧
    (∀ b ∈ blocksFrom hm cur rest, ∀ q, q <+: b → q ≠ [] → q ≠ b → actions q ≤ hm) := by
  induction rest generalizing cur with
  | nil =>
    unfold blocksFrom
    split
    · simp
    · rename_i hne
      refine ⟨by simp, ?_⟩
      intro b hb q hq hq0 _
      rw [List.mem_singleton] at hb
      subst hb
      exact (hc.resolve_left hne) q hq hq0
  | cons p rest ih =>
    have hpre : ∀ q, q <+: cur ++ [p] → q ≠ [] → q ≠ cur ++ [p] → actions q ≤ hm := by
      intro q hq hq0 hqne
      have hq' : q <+: cur := by
        rcases List.prefix_concat_iff.1 hq with h | h
        · exact absurd h hqne
        · exact h
      rcases hc with rfl | hc
      · exact absurd (List.prefix_nil.1 hq') hq0
      · exact hc q hq' hq0
    unfold blocksFrom
    split
    · rename_i hbig
      obtain ⟨h1, h2⟩ := ih [] (Or.inl rfl)
      refine ⟨?_, ?_⟩
      · intro b hb
        cases hbl : blocksFrom hm [] rest with
        | nil => rw [hbl] at hb; simp at hb
        | cons b' bs =>
          rw [hbl, List.dropLast_cons₂] at hb
          rw [hbl] at h1
          rcases List.mem_cons.1 hb with rfl | hb
          · exact hbig
          · exact h1 b hb
      · intro b hb q hq hq0 hqne
        rcases List.mem_cons.1 hb with rfl | hb
        · exact hpre q hq hq0 hqne
        · exact h2 b hb q hq hq0 hqne
    · rename_i hsmall
      apply ih
      right
      intro q hq hq0
      by_cases e : q = cur ++ [p]
      · rw [e]; omega
      · exact hpre q hq hq0 e

theorem groupLoop_other (days : List ℤ) (hm : ℤ) (i : ℕ) (rest : List (ℤ × ℕ)) (st : GroupSt) (d : ℤ)
    (hd : d ∉ rest.map Prod.fst) :
    (groupLoop days hm i rest st).dict.get? d = st.dict.get? d := by
  induction rest generalizing i st with
  | nil => rfl
  | cons p rest ih =>
    obtain ⟨d', v⟩ := p
    simp only [List.map_cons, List.mem_cons, not_or] at hd
    unfold groupLoop
    rw [ih _ _ hd.2]
    unfold groupBody
    dsimp only
    generalize (if st.newStart = true then d' else st.groupN) = g
    generalize (if st.newStart = true then (v : ℤ) else st.localSum + v) = s
    split
    · rw [Dict.get?_set_ne _ _ (Ne.symm hd.1), Dict.get?_set_ne _ _ (Ne.symm hd.1)]
    · rw [Dict.get?_set_ne _ _ (Ne.symm hd.1)]

/-- the loop state while the block `cur` is open -/
def Open (hm : ℤ) (cur : List (ℤ × ℕ)) (st : GroupSt) : Prop :=
  (cur = [] ∧ st.newStart = true) ∨
    (cur ≠ [] ∧ st.newStart = false ∧ st.localSum = actions cur ∧ st.groupN = firstDay cur ∧
      actions cur ≤ hm)

theorem groupBody_vars (days : List ℤ) (hm : ℤ) (i : ℕ) (d : ℤ) (v : ℕ) (st : GroupSt)
    (cur : List (ℤ × ℕ)) (ho : Open hm cur st) :
    (groupBody days hm i d v st).localSum = actions (cur ++ [(d, v)]) ∧
    (groupBody days hm i d v st).groupN = firstDay (cur ++ [(d, v)]) ∧
    Open hm (if hm < actions (cur ++ [(d, v)]) then [] else cur ++ [(d, v)])
      (groupBody days hm i d v st) ∧
    (groupBody days hm i d v st).dict =
      if i + 1 = days.length ∧ actions (cur ++ [(d, v)]) ≤ hm then
        (st.dict.set d (firstDay (cur ++ [(d, v)]))).set d
          (if i = 0 then (stableSort (fun a b => decide (a ≤ b)) days).getLastD d
            else (stableSort (fun a b => decide (a ≤ b)) days).getD (i - 1) d)
      else st.dict.set d (firstDay (cur ++ [(d, v)])) := by
  have e1 : (if st.newStart = true then (v : ℤ) else st.localSum + v) = actions (cur ++ [(d, v)]) := by
    rcases ho with ⟨rfl, h⟩ | ⟨hne, h, hs, -, -⟩
    · rw [if_pos h]; simp [actions]
    · rw [if_neg (by simp [h]), actions_append_one, hs]
  have e2 : (if st.newStart = true then d else st.groupN) = firstDay (cur ++ [(d, v)]) := by
    rcases ho with ⟨rfl, h⟩ | ⟨hne, h, -, hg, -⟩
    · rw [if_pos h]; rfl
    · rw [if_neg (by simp [h]), hg, firstDay_append _ _ hne]
  unfold groupBody
  dsimp only
  rw [e1, e2]
  refine ⟨rfl, rfl, ?_, rfl⟩
  split
  · rename_i hb
    exact Or.inl ⟨rfl, by simpa using hb⟩
  · rename_i hb
    exact Or.inr ⟨by simp, by simpa using hb, rfl, rfl, by omega⟩

theorem groupLoop_spec (days : List ℤ) (hm : ℤ) (i : ℕ) (rest : List (ℤ × ℕ)) (st : GroupSt)
    (cur : List (ℤ × ℕ)) (ho : Open hm cur st) (hlen : i + rest.length = days.length)
    (hnd : (rest.map Prod.fst).Nodup) :
    (∀ p, rest.getLast? = some p → (groupLoop days hm i rest st).localSum ≤ hm →
      (groupLoop days hm i rest st).dict.get? p.1 = some
        (if days.length = 1 then (stableSort (fun a b => decide (a ≤ b)) days).getLastD p.1
          else (stableSort (fun a b => decide (a ≤ b)) days).getD (days.length - 2) p.1)) ∧
    (rest ≠ [] → ∃ b, (blocksFrom hm cur rest).getLast? = some b ∧
      (groupLoop days hm i rest st).localSum = actions b) ∧
    List.Forall₂ (fun p l => (rest.getLast? ≠ some p ∨ hm < (groupLoop days hm i rest st).localSum) →
      (groupLoop days hm i rest st).dict.get? p.1 = some l) rest (rawLabels hm cur rest) := by
  induction rest generalizing i st cur with
  | nil => exact ⟨by simp, by simp, List.Forall₂.nil⟩
  | cons p rest ih =>
    obtain ⟨d, v⟩ := p
    obtain ⟨b1, b2, b3, b4⟩ := groupBody_vars days hm i d v st cur ho
    rw [List.map_cons, List.nodup_cons] at hnd
    simp only [List.length_cons] at hlen
    unfold groupLoop
    cases rest with
    | nil =>
      have hi : i + 1 = days.length := by simpa using hlen
      have hfin : groupLoop days hm (i + 1) [] (groupBody days hm i d v st) =
          groupBody days hm i d v st := rfl
      rw [hfin]
      refine ⟨?_, ?_, ?_⟩
      · intro p hp hs
        simp only [List.getLast?_singleton, Option.some.injEq] at hp
        subst hp
        rw [b4, if_pos ⟨hi, by rw [← b1]; exact hs⟩, Dict.get?_set_self]
        have h1 : i = 0 ↔ days.length = 1 := by omega
        have h2 : i - 1 = days.length - 2 := by omega
        simp only [h1, h2]
      · intro _
        refine ⟨cur ++ [(d, v)], ?_, b1⟩
        unfold blocksFrom
        split
        · simp [blocksFrom]
        · simp [blocksFrom]
      · unfold rawLabels
        refine List.Forall₂.cons ?_ List.Forall₂.nil
        intro h
        rcases h with h | h
        · simp at h
        · rw [b4, if_neg (by rw [b1] at h; omega), Dict.get?_set_self]
    | cons q rest =>
      have hi : i + 1 ≠ days.length := by simp at hlen; omega
      rw [if_neg (by omega)] at b4
      obtain ⟨i1, i2, i3⟩ := ih (i + 1) (groupBody days hm i d v st) _ b3
        (by simp only [List.length_cons] at hlen ⊢; omega) hnd.2
      refine ⟨?_, ?_, ?_⟩
      · intro p hp
        rw [List.getLast?_cons_cons] at hp
        exact i1 p hp
      · intro _
        obtain ⟨b, hb, hs⟩ := i2 (by simp)
        refine ⟨b, ?_, hs⟩
        rw [blocksFrom]
        split
        · rename_i hbig
          rw [if_pos hbig] at hb
          rw [List.getLast?_cons, hb]; rfl
        · rename_i hbig
          rw [if_neg hbig] at hb
          exact hb
      · rw [rawLabels]
        refine List.Forall₂.cons ?_ ?_
        · intro _
          rw [groupLoop_other _ _ _ _ _ _ hnd.1, b4, Dict.get?_set_self]
        · refine i3.imp ?_
          intro p l hpl hor
          apply hpl
          rwa [List.getLast?_cons_cons] at hor

/-- entries of the dictionary under construction after the days `pre` -/
structure LabelInv (pre : List ℤ) (f : ℤ → Option ℤ) : Prop where
  key : ∀ d l, f d = some l → d ∈ pre ∧ l ≤ d
  total : ∀ d ∈ pre, ∃ l, f d = some l
  mono : ∀ d d' l l', f d = some l → f d' = some l' → d ≤ d' → l ≤ l'

theorem LabelInv.extend {pre : List ℤ} {f f' : ℤ → Option ℤ} (h : LabelInv pre f) (d g : ℤ)
    (hd : ∀ e ∈ pre, e < d) (hf : ∀ e, f' e = if e = d then some g else f e) (hgd : g ≤ d)
    (hg : ∀ e l, f e = some l → l ≤ g) : LabelInv (pre ++ [d]) f' := by
  refine ⟨?_, ?_, ?_⟩
  · intro e l he
    rw [hf] at he
    split at he
    · rename_i e1
      have := Option.some.inj he
      subst e1; subst this
      exact ⟨by simp, hgd⟩
    · obtain ⟨h1, h2⟩ := h.key e l he
      exact ⟨by simp [h1], h2⟩
  · intro e he
    rw [hf]
    split
    · exact ⟨g, rfl⟩
    · rename_i hne
      rcases List.mem_append.1 he with he | he
      · exact h.total e he
      · exact absurd (List.mem_singleton.1 he) hne
  · intro e e' l l' he he' hle
    rw [hf] at he he'
    split at he <;> split at he'
    · rw [← Option.some.inj he, ← Option.some.inj he']
    · rename_i h1 h2
      have := hd e' (h.key e' l' he').1
      omega
    · rw [← Option.some.inj he']
      exact hg e l he
    · exact h.mono e e' l l' he he' hle

theorem stableSort_sorted_days (days : List ℤ) (hs : days.Pairwise (· < ·)) :
    stableSort (fun a b => decide (a ≤ b)) days = days :=
  stableSort_of_sorted _ (hs.imp fun h => by simpa using le_of_lt h)

theorem groupLoop_labels (days pre : List ℤ) (hm : ℤ) (rest : List (ℤ × ℕ)) (st : GroupSt)
    (hdays : days = pre ++ rest.map Prod.fst) (hs : days.Pairwise (· < ·))
    (hinv : LabelInv pre (fun d => st.dict.get? d))
    (hg : st.newStart = false → (∀ d l, st.dict.get? d = some l → l ≤ st.groupN) ∧
      ∃ d ∈ pre, st.groupN ≤ d) :
    LabelInv days (fun d => (groupLoop days hm pre.length rest st).dict.get? d) := by
  induction rest generalizing pre st with
  | nil =>
    simp only [List.map_nil, List.append_nil] at hdays
    subst hdays
    exact hinv
  | cons p rest ih =>
    obtain ⟨d, v⟩ := p
    have hsp := hs
    rw [hdays, List.map_cons, List.pairwise_append] at hsp
    obtain ⟨hs1, hs2, hs3⟩ := hsp
    have hlt : ∀ e ∈ pre, e < d := fun e he => hs3 e he d (by simp)
    unfold groupLoop
    have hgn : (if st.newStart = true then d else st.groupN) ≤ d ∧
        ∀ e l, st.dict.get? e = some l → l ≤ (if st.newStart = true then d else st.groupN) := by
      by_cases hn : st.newStart = true
      · rw [if_pos hn]
        refine ⟨le_rfl, fun e l he => ?_⟩
        have h1 := hinv.key e l he
        have h2 := hlt e h1.1
        omega
      · rw [if_neg hn]
        obtain ⟨h1, e, he, h2⟩ := hg (by simpa using hn)
        have := hlt e he
        exact ⟨by omega, h1⟩
    have hext : LabelInv (pre ++ [d])
        (fun e => (st.dict.set d (if st.newStart = true then d else st.groupN)).get? e) := by
      refine hinv.extend d _ hlt (fun e => ?_) hgn.1 hgn.2
      rw [Dict.get?_set]
      by_cases he : e = d
      · subst he; simp
      · rw [if_neg he, if_neg (fun h => he h.symm)]
    have hdays' : days = (pre ++ [d]) ++ rest.map Prod.fst := by rw [hdays]; simp
    cases rest with
    | nil =>
      have hlen : pre.length + 1 = days.length := by rw [hdays]; simp
      show LabelInv days (fun e => (groupBody days hm pre.length d v st).dict.get? e)
      have hdd : days = pre ++ [d] := by rw [hdays]; rfl
      unfold groupBody
      dsimp only
      generalize (if st.newStart = true then (v : ℤ) else st.localSum + v) = s
      generalize hgv : (if st.newStart = true then d else st.groupN) = g at hgn hext
      split
      · rw [stableSort_sorted_days days hs]
        have hprev : (if pre.length = 0 then days.getLastD d else days.getD (pre.length - 1) d) ≤ d ∧
            ∀ e ∈ pre, e ≤ (if pre.length = 0 then days.getLastD d
              else days.getD (pre.length - 1) d) := by
          split
          · rename_i h0
            have : pre = [] := List.length_eq_zero_iff.1 h0
            subst this
            rw [hdd]
            exact ⟨le_rfl, by simp⟩
          · rename_i h0
            have hpos : pre.length - 1 < pre.length := by clear hlen; omega
            have e : days.getD (pre.length - 1) d = pre[pre.length - 1]'hpos := by
              rw [hdd, List.getD_eq_getElem?_getD, List.getElem?_append_left (by omega),
                List.getElem?_eq_getElem (by omega)]
              rfl
            rw [e]
            refine ⟨le_of_lt (hlt _ (List.getElem_mem _)), fun x hx => ?_⟩
            obtain ⟨j, hj, rfl⟩ := List.getElem_of_mem hx
            rcases Nat.lt_or_ge j (pre.length - 1) with h | h
            · exact le_of_lt (List.pairwise_iff_getElem.1 hs1 j (pre.length - 1) hj (by omega) h)
            · have : j = pre.length - 1 := by omega
              subst this
              exact le_rfl
        have := hinv.extend (f' := fun e => ((st.dict.set d g).set d
          (if pre.length = 0 then days.getLastD d else days.getD (pre.length - 1) d)).get? e) d _
          hlt (fun e => ?_) hprev.1 (fun e l he => ?_)
        · rw [← hdd] at this
          exact this
        · rw [Dict.get?_set, Dict.get?_set]
          by_cases he : e = d
          · subst he; simp
          · rw [if_neg he, if_neg (fun h => he h.symm), if_neg (fun h => he h.symm)]
        · obtain ⟨h1, h2⟩ := hinv.key e l he
          have := hprev.2 e h1
          omega
      · rw [hdd]; exact hext
    | cons q rest =>
      have hlen : pre.length + 1 ≠ days.length := by rw [hdays]; simp
      have hbody : (groupBody days hm pre.length d v st).dict =
          st.dict.set d (if st.newStart = true then d else st.groupN) := by
        unfold groupBody
        dsimp only
        rw [if_neg (by omega)]
      have := ih (pre ++ [d]) (groupBody days hm pre.length d v st) hdays'
        (by rw [hbody]; exact hext) (by
          intro _
          rw [hbody]
          show _ ∧ ∃ e ∈ pre ++ [d], (if st.newStart = true then d else st.groupN) ≤ e
          refine ⟨fun e l he => ?_, d, by simp, hgn.1⟩
          show l ≤ (if st.newStart = true then d else st.groupN)
          rw [Dict.get?_set] at he
          split at he
          · rw [← Option.some.inj he]
          · exact hgn.2 e l he)
      simpa using this

/-- the finished dictionary: a label for exactly the listed days, never later than the day, and
monotone in the day -/
theorem groupMapping_labels (counts : List (ℤ × ℕ)) (hm : ℤ)
    (hs : (counts.map Prod.fst).Pairwise (· < ·)) :
    LabelInv (counts.map Prod.fst) (fun d => (getDateToGroupMapping counts hm).get? d) := by
  unfold getDateToGroupMapping
  exact groupLoop_labels (counts.map Prod.fst) [] hm counts ⟨true, 0, 0, []⟩ rfl hs
    ⟨(fun d l h => nomatch h), (by simp), (fun d d' l l' h => nomatch h)⟩ (by simp)

end DynCF
