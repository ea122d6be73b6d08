/-
Lemmas about the steps of `PSI.update` (`Model/PsiClass`): a consistent model stays consistent.
-/
import Verif.Lemmas.PsiClass
import Verif.Lemmas.Recommend

set_option linter.unusedSectionVars false

namespace DynCF
open Matrix
variable {K : Type}

/-- Mappings and factors fit together: `us` and `is` are the known users and items, `r` the rank. -/
structure PsiShape (st : PSIState K) (us is : List ℤ) (r : ℕ) [Zero K] : Prop where
  user : Represents st.maps.user us
  item : Represents st.maps.item is
  uRows : st.u.rows = us.length
  uCols : st.u.cols = r
  vRows : st.vt.rows = r
  vCols : st.vt.cols = is.length
  sDim : st.s.toMat.rows = r ∧ st.s.toMat.cols = r
  ru : r ≤ us.length
  ri : r ≤ is.length

/-- The known users after a step of the given mode on `data`. -/
def growUsers (us : List ℤ) : PsiMode → List (Row K) → List ℤ
  | .new, d => us ++ pdUnique (d.map Row.user)
  | .newUsers, d => us ++ pdUnique (d.map Row.user)
  | _, _ => us

/-- The known items after a step of the given mode on `data`. -/
def growItems (is : List ℤ) : PsiMode → List (Row K) → List ℤ
  | .new, d => is ++ pdUnique (d.map Row.item)
  | .newItems, d => is ++ pdUnique (d.map Row.item)
  | _, _ => is

/-- The step appends more new users than there are items (or the other way round) by
`update_svd_new_vectors`. -/
def TooMany (cfg : PSICfg) (us is : List ℤ) (mode : PsiMode) (d : List (Row K)) : Prop :=
  cfg.init = none ∧
    ((mode = .newUsers ∧ is.length < (pdUnique (d.map Row.user)).length) ∨
      (mode = .newItems ∧ us.length < (pdUnique (d.map Row.item)).length))

theorem growUsers_nil (us : List ℤ) (mode : PsiMode) : growUsers (K := K) us mode [] = us := by
  cases mode <;> simp [growUsers, pdUnique]

theorem growItems_nil (is : List ℤ) (mode : PsiMode) : growItems (K := K) is mode [] = is := by
  cases mode <;> simp [growItems, pdUnique]

theorem pdUnique_pos {l : List ℤ} (h : 0 < l.length) : 0 < (pdUnique l).length := by
  obtain ⟨x, hx⟩ := List.exists_mem_of_length_pos h
  exact List.length_pos_of_mem ((mem_pdUnique l x).2 hx)

section
variable [Field K] [LinearOrder K]

theorem SArg.toMat_mk {s : SArg K} {r : ℕ} (h : s.toMat.rows = r ∧ s.toMat.cols = r) :
    ∃ S : Matrix (Fin r) (Fin r) K, s.toMat = ⟨r, r, S⟩ := by
  obtain ⟨h1, h2⟩ := h
  generalize s.toMat = m at h1 h2
  obtain ⟨a, b, S⟩ := m
  dsimp only at h1 h2
  subst h1 h2
  exact ⟨S, rfl⟩

theorem processData_eq {st : PSIState K} {us is : List ℤ} {r : ℕ} (h : PsiShape st us is r)
    (data : List (Row K)) (mode : PsiMode) (hd : ∀ x ∈ data, stepClass us is mode x = true) :
    ∃ maps da, processData st data mode = .ok (da, { st with maps := maps }) ∧
      Represents maps.user (growUsers us mode data) ∧ Represents maps.item (growItems is mode data) ∧
      da = match mode with
        | .new => ⟨_, _, sumAt data Row.user Row.item (pdUnique (data.map Row.user)) (pdUnique (data.map Row.item))⟩
        | .newUsers => ⟨_, _, sumAt data Row.item Row.user is (pdUnique (data.map Row.user))⟩
        | .newItems => ⟨_, _, sumAt data Row.user Row.item us (pdUnique (data.map Row.item))⟩
        | .old => ⟨_, _, sumAt data Row.user Row.item us is⟩ := by
  have memU : ∀ x ∈ data, x.user ∈ pdUnique (data.map Row.user) := fun x hx =>
    (mem_pdUnique _ _).2 (List.mem_map_of_mem hx)
  have memI : ∀ x ∈ data, x.item ∈ pdUnique (data.map Row.item) := fun x hx =>
    (mem_pdUnique _ _).2 (List.mem_map_of_mem hx)
  cases mode with
  | new =>
    have hd' : ∀ x ∈ data, x.user ∉ us ∧ x.item ∉ is := fun x hx => by simpa [stepClass] using hd x hx
    have hu := addNewEntities_maps h.user (data.map Row.user) (by
      intro x hx; obtain ⟨y, hy, rfl⟩ := List.mem_map.1 hx; exact (hd' y hy).1)
    have hi := addNewEntities_maps h.item (data.map Row.item) (by
      intro x hx; obtain ⟨y, hy, rfl⟩ := List.mem_map.1 hx; exact (hd' y hy).2)
    obtain ⟨lu, nu⟩ := addNewEntities_local st.maps.user (data.map Row.user)
    obtain ⟨li, ni⟩ := addNewEntities_local st.maps.item (data.map Row.item)
    refine ⟨⟨_, _⟩, _, ?_, hu, hi, rfl⟩
    unfold processData
    dsimp only
    rw [nu, ni, mappedEntries_eq data Row.user Row.item lu li memU memI]
    rfl
  | newUsers =>
    have hd' : ∀ x ∈ data, x.user ∉ us ∧ x.item ∈ is := fun x hx => by simpa [stepClass] using hd x hx
    have hu := addNewEntities_maps h.user (data.map Row.user) (by
      intro x hx; obtain ⟨y, hy, rfl⟩ := List.mem_map.1 hx; exact (hd' y hy).1)
    obtain ⟨lu, nu⟩ := addNewEntities_local st.maps.user (data.map Row.user)
    refine ⟨⟨_, _⟩, _, ?_, hu, h.item, rfl⟩
    unfold processData
    dsimp only
    rw [nu, h.vCols, mappedEntries_eq data Row.item Row.user h.item.idxMap lu (fun x hx => (hd' x hx).2) memU]
    rfl
  | newItems =>
    have hd' : ∀ x ∈ data, x.user ∈ us ∧ x.item ∉ is := fun x hx => by simpa [stepClass] using hd x hx
    have hi := addNewEntities_maps h.item (data.map Row.item) (by
      intro x hx; obtain ⟨y, hy, rfl⟩ := List.mem_map.1 hx; exact (hd' y hy).2)
    obtain ⟨li, ni⟩ := addNewEntities_local st.maps.item (data.map Row.item)
    refine ⟨⟨st.maps.user, (addNewEntities st.maps.item (data.map Row.item)).1⟩, _, ?_, h.user, hi, rfl⟩
    unfold processData
    dsimp only
    rw [ni, h.uRows, mappedEntries_eq data Row.user Row.item h.user.idxMap li (fun x hx => (hd' x hx).1) memI]
    rfl
  | old =>
    have hd' : ∀ x ∈ data, x.user ∈ us ∧ x.item ∈ is := fun x hx => by simpa [stepClass] using hd x hx
    refine ⟨st.maps, _, ?_, h.user, h.item, rfl⟩
    unfold processData
    dsimp only
    rw [h.uRows, h.vCols, mappedEntries_eq data Row.user Row.item h.user.idxMap h.item.idxMap
      (fun x hx => (hd' x hx).1) (fun x hx => (hd' x hx).2)]
    rfl

/-- Shapes of the factors after the step. -/
structure FactorsOk (st : PSIState K) (m n r : ℕ) : Prop where
  uRows : st.u.rows = m
  uCols : st.u.cols = r
  vRows : st.vt.rows = r
  vCols : st.vt.cols = n
  sDim : st.s.toMat.rows = r ∧ st.s.toMat.cols = r

theorem psiUpdater_shape (env : PSIEnv K) (hsort : ArgSortOk env.argsort) (cfg : PSICfg)
    {st : PSIState K} {m n r : ℕ} (h : FactorsOk st m n r) (hm : r ≤ m) (hn : r ≤ n) (da : Mat K)
    (mode : PsiMode) (nu ni : ℕ)
    (hda : match mode with
      | .new => da.rows = nu ∧ da.cols = ni
      | .newUsers => da.rows = n ∧ da.cols = nu ∧ ni = 0 ∧ 0 < nu
      | .newItems => da.rows = m ∧ da.cols = ni ∧ nu = 0 ∧ 0 < ni
      | .old => da.rows = m ∧ da.cols = n ∧ nu = 0 ∧ ni = 0) :
    (∃ st', psiUpdater env cfg st da mode = .ok st' ∧ FactorsOk st' (m + nu) (n + ni) r ∧
      st'.maps = st.maps ∧ st'.history = st.history ∧
      ¬ (cfg.init = none ∧ (mode = .newUsers ∧ n < nu ∨ mode = .newItems ∧ m < ni))) ∨
    (psiUpdater env cfg st da mode = .error .valueError ∧ cfg.init = none ∧
      (mode = .newUsers ∧ n < nu ∨ mode = .newItems ∧ m < ni)) := by
  obtain ⟨S, hS⟩ := SArg.toMat_mk h.sDim
  obtain ⟨maps, ⟨um, uc, U⟩, s, ⟨vr, vc, V⟩, hist, uf, itf⟩ := st
  obtain ⟨h1, h2, h3, h4, -⟩ := h
  dsimp only at h1 h2 h3 h4 hS
  subst h1 h2 h3 h4
  obtain ⟨dm, dn, dA⟩ := da
  cases mode with
  | new =>
    obtain ⟨rfl, rfl⟩ := hda
    left
    simp only [psiUpdater]
    split
    · exact ⟨_, rfl, ⟨rfl, rfl, rfl, rfl, by simp [hS, addZeroItems, addZeroUsers]⟩, rfl, rfl, by simp⟩
    · obtain ⟨U2, s2, V2, he⟩ := newSubmatrix_shape env.la env.rng env.argsort hsort U s S hS V dA
        cfg.nPower cfg.os
      rw [he, except_bind_ok]
      exact ⟨_, rfl, ⟨rfl, rfl, rfl, rfl, ⟨rfl, rfl⟩⟩, rfl, rfl, by simp⟩
  | newUsers =>
    obtain ⟨rfl, rfl, rfl, hpos⟩ := hda
    unfold psiUpdater
    rcases hi : cfg.init with - | ⟨-⟩ | -
    · dsimp only
      rcases newVectors_shape env.la env.rng V.transpose s S hS U.transpose dA hpos hn cfg.nPower cfg.os
        with ⟨hle, U2, s2, V2, he⟩ | ⟨hlt, he⟩
      · left
        simp only [Mat.T_mk]
        rw [he, except_bind_ok]
        exact ⟨_, rfl, ⟨rfl, rfl, rfl, rfl, ⟨rfl, rfl⟩⟩, rfl, rfl, by simp; omega⟩
      · right
        simp only [Mat.T_mk]
        rw [he]
        exact ⟨rfl, trivial, Or.inl ⟨trivial, hlt⟩⟩
    · left
      exact ⟨_, rfl, ⟨rfl, rfl, rfl, rfl, by simp [hS, addZeroUsers]⟩, rfl, rfl, by simp⟩
    · left
      dsimp only [addRandomUsers, padRandom, LinAlg.qrM]
      rw [hS]
      simp only [Mat.dot_mk, except_bind_ok]
      refine ⟨_, rfl, ⟨rfl, ?_, rfl, rfl, ⟨?_, rfl⟩⟩, rfl, rfl, by simp⟩ <;> dsimp only [SArg.toMat] <;> omega
  | newItems =>
    obtain ⟨rfl, rfl, rfl, hpos⟩ := hda
    unfold psiUpdater
    rcases hi : cfg.init with - | ⟨-⟩ | -
    · dsimp only
      rcases newVectors_shape env.la env.rng U s S hS V dA hpos hm cfg.nPower cfg.os
        with ⟨hle, U2, s2, V2, he⟩ | ⟨hlt, he⟩
      · left
        rw [he, except_bind_ok]
        exact ⟨_, rfl, ⟨rfl, rfl, rfl, rfl, ⟨rfl, rfl⟩⟩, rfl, rfl, by simp; omega⟩
      · right
        rw [he]
        exact ⟨rfl, rfl, Or.inr ⟨rfl, hlt⟩⟩
    · left
      exact ⟨_, rfl, ⟨rfl, rfl, rfl, rfl, by simp [hS, addZeroItems]⟩, rfl, rfl, by simp⟩
    · left
      dsimp only [addRandomItems, padRandom, LinAlg.qrM, Mat.T]
      rw [hS]
      simp only [Mat.dot_mk, except_bind_ok]
      refine ⟨_, rfl, ⟨rfl, rfl, ?_, rfl, ⟨?_, rfl⟩⟩, rfl, rfl, by simp⟩ <;> dsimp only [SArg.toMat, Mat.T] <;> omega
  | old =>
    obtain ⟨rfl, rfl, rfl, rfl⟩ := hda
    left
    unfold psiUpdater
    obtain ⟨a, b, c, he, ha, hb, hc1, hc2⟩ := C41_shapes env.la U s S hS V dA hm hn
    dsimp only
    rw [he, except_bind_ok]
    exact ⟨_, rfl, ⟨ha.1, ha.2, hc1, hc2, hb⟩, rfl, rfl, by simp⟩

theorem updateFactors_eq (env : PSIEnv K) (hsort : ArgSortOk env.argsort) (cfg : PSICfg)
    {st : PSIState K} {us is : List ℤ} {r : ℕ} (h : PsiShape st us is r) (data : List (Row K))
    (mode : PsiMode) (hd : ∀ x ∈ data, stepClass us is mode x = true) :
    (∃ st', updateFactorsByMode env cfg st data mode = .ok st' ∧
      PsiShape st' (growUsers us mode data) (growItems is mode data) r ∧ st'.history = st.history ∧
      ¬ TooMany cfg us is mode data) ∨
    (updateFactorsByMode env cfg st data mode = .error .valueError ∧ TooMany cfg us is mode data) := by
  unfold updateFactorsByMode
  split
  · rename_i hlen
    obtain ⟨maps, da, hp, hu, hi, hda⟩ := processData_eq h data mode hd
    have hpu : 0 < (pdUnique (data.map Row.user)).length := pdUnique_pos (by simpa using hlen)
    have hpi : 0 < (pdUnique (data.map Row.item)).length := pdUnique_pos (by simpa using hlen)
    have hf : FactorsOk { st with maps := maps } us.length is.length r :=
      ⟨h.uRows, h.uCols, h.vRows, h.vCols, h.sDim⟩
    rw [hp, except_bind_ok]
    have key := psiUpdater_shape env hsort cfg hf h.ru h.ri da mode
      (match mode with
        | .new => (pdUnique (data.map Row.user)).length
        | .newUsers => (pdUnique (data.map Row.user)).length
        | _ => 0)
      (match mode with
        | .new => (pdUnique (data.map Row.item)).length
        | .newItems => (pdUnique (data.map Row.item)).length
        | _ => 0)
      (by cases mode <;> subst hda <;> simp [hpu, hpi] )
    rcases key with ⟨st', he, hf', hmaps, hhist, hnot⟩ | ⟨he, hin, hbad⟩
    · left
      refine ⟨st', he, ⟨hmaps ▸ hu, hmaps ▸ hi, ?_, hf'.uCols, hf'.vRows, ?_, hf'.sDim, ?_, ?_⟩, hhist, ?_⟩
      · rw [hf'.uRows]; cases mode <;> simp [growUsers]
      · rw [hf'.vCols]; cases mode <;> simp [growItems]
      · have := h.ru; cases mode <;> simp only [growUsers, List.length_append] <;> omega
      · have := h.ri; cases mode <;> simp only [growItems, List.length_append] <;> omega
      · rintro ⟨hin, ⟨rfl, hb⟩ | ⟨rfl, hb⟩⟩
        · exact hnot ⟨hin, Or.inl ⟨rfl, hb⟩⟩
        · exact hnot ⟨hin, Or.inr ⟨rfl, hb⟩⟩
    · right
      refine ⟨he, hin, ?_⟩
      rcases hbad with ⟨rfl, hb⟩ | ⟨rfl, hb⟩
      · exact Or.inl ⟨rfl, hb⟩
      · exact Or.inr ⟨rfl, hb⟩
  · rename_i hlen
    have : data = [] := by simpa using hlen
    subst this
    left
    exact ⟨st, rfl, by rw [growUsers_nil, growItems_nil]; exact h, rfl, by simp [TooMany, pdUnique]⟩

/-- One round of a loop over modes. -/
theorem psiRound_eq (env : PSIEnv K) (hsort : ArgSortOk env.argsort) (cfg : PSICfg)
    {l : PsiLoop K} {us is : List ℤ} {r : ℕ} (h : PsiShape l.st us is r) (mode : PsiMode) :
    (∃ st', psiRound env cfg l mode = .ok ⟨st', l.left.filter fun x => !stepClass us is mode x,
        l.log ++ [(mode, l.left.filter (stepClass us is mode))]⟩ ∧
      PsiShape st' (growUsers us mode (l.left.filter (stepClass us is mode)))
        (growItems is mode (l.left.filter (stepClass us is mode))) r ∧
      st'.history = l.st.history ∧ ¬ TooMany cfg us is mode (l.left.filter (stepClass us is mode))) ∨
    (psiRound env cfg l mode = .error .valueError ∧
      TooMany cfg us is mode (l.left.filter (stepClass us is mode))) := by
  have hm : getDivideDfMask l.left l.st.maps mode = l.left.map (stepClass us is mode) := by
    unfold getDivideDfMask
    exact List.map_congr_left fun x _ => divideRow_eq h.user h.item mode x
  have h1 : maskSelect l.left (l.left.map (stepClass us is mode)) = l.left.filter (stepClass us is mode) :=
    maskSelect_map _ _
  have h2 : maskSelect l.left ((l.left.map (stepClass us is mode)).map fun b => !b) =
      l.left.filter fun x => !stepClass us is mode x := by
    rw [List.map_map]; exact maskSelect_map _ _
  have hd : ∀ x ∈ l.left.filter (stepClass us is mode), stepClass us is mode x = true :=
    fun x hx => (List.mem_filter.1 hx).2
  unfold psiRound
  dsimp only
  rw [hm, h1, h2]
  rcases updateFactors_eq env hsort cfg h _ mode hd with ⟨st', he, hs, hh, hn⟩ | ⟨he, ht⟩
  · left
    rw [he, except_bind_ok]
    exact ⟨st', rfl, hs, hh, hn⟩
  · right
    rw [he]
    exact ⟨rfl, ht⟩

end
end DynCF
