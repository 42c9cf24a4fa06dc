import Verif.Proofs.StarGuard
import Mathlib.Tactic.Ring

/-! Helpers for C70: the query. -/

set_option autoImplicit false
set_option linter.unusedSectionVars false

namespace Verif.Proofs.StarGrd

open Verif Verif.Grd Verif.Grd.Spec Verif.Stars Verif.StarGrd Verif.StarGrd.Spec Verif.Proofs Finset

section
variable {K : Type}

theorem keys_ofList (zs : List (ZFml K)) (k : Key) : k ∈ (ZFmls.ofList zs).keys ↔ ∃ z ∈ zs, k ∈ z.keys := by
  induction zs with
  | nil => simp [ZFmls.ofList, ZFmls.keys]
  | cons z zs ih => simp [ZFmls.ofList, ZFmls.keys, ih]

theorem keys_zAnd (zs : List (ZFml K)) (k : Key) : k ∈ (zAnd zs).keys ↔ ∃ z ∈ zs, k ∈ z.keys := by
  unfold zAnd
  split
  · simp
  · rw [ZFml.keys, keys_ofList]

theorem keys_zOr (zs : List (ZFml K)) (k : Key) : k ∈ (zOr zs).keys ↔ ∃ z ∈ zs, k ∈ z.keys := by
  unfold zOr
  split
  · simp
  · rw [ZFml.keys, keys_ofList]

mutual
theorem genF_keys : ∀ (f : Fml K) (r : ZRes K), genF f = .ok r → ∀ k ∈ r.text.keys, k ∈ keysF f
  | .bool b, r, h => by simp only [genF] at h; cases h; simp [ZRes.text, ZFml.keys]
  | .cmp op s t, r, h => by simp only [genF] at h; cases h; simp [ZRes.text, ZFml.keys, keysF]
  | .and fs, r, h => by
    simp only [genF] at h
    obtain ⟨r', h', rfl⟩ := (map_ok_iff ..).1 h
    have := genAnd_keys fs r' h'
    cases r' with
    | none => simp [ZRes.text, ZFml.keys]
    | some zs =>
      intro k hk
      simp only [ZRes.text, keys_zAnd] at hk
      obtain ⟨z, hz, hk⟩ := hk
      rw [keysF]
      exact this zs rfl z hz k hk
  | .or fs, r, h => by
    simp only [genF] at h
    obtain ⟨r', h', rfl⟩ := (map_ok_iff ..).1 h
    have := genOr_keys fs r' h'
    cases r' with
    | none => simp [ZRes.text, ZFml.keys]
    | some zs =>
      intro k hk
      simp only [ZRes.text, keys_zOr] at hk
      obtain ⟨z, hz, hk⟩ := hk
      rw [keysF]
      exact this zs rfl z hz k hk
  | .not f, r, h => by
    simp only [genF] at h
    obtain ⟨r', h', rfl⟩ := (map_ok_iff ..).1 h
    have := genF_keys f r' h'
    intro k hk
    simp only [ZRes.text, ZFml.keys] at hk
    rw [keysF]
    exact this k hk
  | .callb f args, r, h => by simp [genF] at h
  | .red b x l f, r, h => by simp [genF] at h
theorem genAnd_keys : ∀ (f : Fmls K) (r : Option (List (ZFml K))), genAnd f = .ok r → ∀ zs, r = some zs → ∀ z ∈ zs, ∀ k ∈ z.keys, k ∈ keysFs f
  | .nil, r, h => by simp only [genAnd] at h; cases h; intro zs hzs; cases hzs; simp
  | .cons f fs, r, h => by
    simp only [genAnd] at h
    obtain ⟨r1, h1, h⟩ := (bind_ok_iff ..).1 h
    have ih1 := genF_keys f r1 h1
    rcases r1 with (_ | _) | z
    · cases h; intro zs hzs; cases hzs
    · have ih2 := genAnd_keys fs r h
      intro zs hzs z hz k hk
      rw [keysFs]
      exact List.mem_append_right _ (ih2 zs hzs z hz k hk)
    · simp only at h
      obtain ⟨r2, h2, h⟩ := (bind_ok_iff ..).1 h
      have ih2 := genAnd_keys fs r2 h2
      cases h
      intro zs hzs z' hz k hk
      rw [keysFs, List.mem_append]
      cases r2 with
      | none => cases hzs
      | some zs2 =>
        cases hzs
        rcases List.mem_cons.1 hz with rfl | hz
        · exact .inl (ih1 k hk)
        · exact .inr (ih2 zs2 rfl z' hz k hk)
theorem genOr_keys : ∀ (f : Fmls K) (r : Option (List (ZFml K))), genOr f = .ok r → ∀ zs, r = some zs → ∀ z ∈ zs, ∀ k ∈ z.keys, k ∈ keysFs f
  | .nil, r, h => by simp only [genOr] at h; cases h; intro zs hzs; cases hzs; simp
  | .cons f fs, r, h => by
    simp only [genOr] at h
    obtain ⟨r1, h1, h⟩ := (bind_ok_iff ..).1 h
    have ih1 := genF_keys f r1 h1
    rcases r1 with (_ | _) | z
    · have ih2 := genOr_keys fs r h
      intro zs hzs z hz k hk
      rw [keysFs]
      exact List.mem_append_right _ (ih2 zs hzs z hz k hk)
    · cases h; intro zs hzs; cases hzs
    · simp only at h
      obtain ⟨r2, h2, h⟩ := (bind_ok_iff ..).1 h
      have ih2 := genOr_keys fs r2 h2
      cases h
      intro zs hzs z' hz k hk
      rw [keysFs, List.mem_append]
      cases r2 with
      | none => cases hzs
      | some zs2 =>
        cases hzs
        rcases List.mem_cons.1 hz with rfl | hz
        · exact .inl (ih1 k hk)
        · exact .inr (ih2 zs2 rfl z' hz k hk)
end

theorem genLoop_keys : ∀ (fs : List (Fml K)) (r : Option (List (ZFml K))), genLoop fs = .ok r → ∀ zs, r = some zs → ∀ z ∈ zs, ∀ k ∈ z.keys,
    ∃ f ∈ fs, k ∈ keysF f
  | [], r, h => by simp only [genLoop] at h; cases h; intro zs hzs; cases hzs; simp
  | f :: fs, r, h => by
    simp only [genLoop] at h
    obtain ⟨r1, h1, h⟩ := (bind_ok_iff ..).1 h
    have ih1 := genF_keys f r1 h1
    rcases r1 with (_ | _) | z
    · cases h; intro zs hzs; cases hzs
    · have ih2 := genLoop_keys fs r h
      intro zs hzs z hz k hk
      obtain ⟨f', hf', hk'⟩ := ih2 zs hzs z hz k hk
      exact ⟨f', List.mem_cons_of_mem _ hf', hk'⟩
    · simp only at h
      obtain ⟨r2, h2, h⟩ := (bind_ok_iff ..).1 h
      have ih2 := genLoop_keys fs r2 h2
      cases h
      intro zs hzs z' hz k hk
      cases r2 with
      | none => cases hzs
      | some zs2 =>
        cases hzs
        rcases List.mem_cons.1 hz with rfl | hz
        · exact ⟨f, by simp, ih1 k hk⟩
        · obtain ⟨f', hf', hk'⟩ := ih2 zs2 rfl z' hz k hk
          exact ⟨f', List.mem_cons_of_mem _ hf', hk'⟩

theorem genList_keys (fs : List (Fml K)) (z : ZFml K) (h : genList fs = .ok (.inr z)) : ∀ k ∈ z.keys, ∃ f ∈ fs, k ∈ keysF f := by
  unfold genList at h
  obtain ⟨r, hr, he⟩ := (map_ok_iff _ _ _).1 h
  have := genLoop_keys fs r hr
  rcases r with _ | _ | ⟨a, zs⟩
  · cases he
  · cases he
  · injection he with he
    subst he
    intro k hk
    obtain ⟨z, hz, hk⟩ := (keys_zAnd _ _).1 hk
    exact this _ rfl z hz k hk

/-! ### the agents in the query -/

theorem agentStates_spec (cont : Dict Text (Entry K)) (syms : List Text) (st : Dict Text (Entry K)) (h : agentStates cont syms = .ok st) :
    (∀ a e, Dict.get? st a = some e → ∃ k ∈ syms, agentOf k = a ∧ Dict.get? cont k = some e) ∧
    (∀ k ∈ syms, (Dict.get? st (agentOf k)).isSome) ∧ (st.map Prod.fst).Nodup := by
  refine foldlM_inv_pre (fun pre (st : Dict Text (Entry K)) => (∀ a e, Dict.get? st a = some e → ∃ k ∈ pre, agentOf k = a ∧ Dict.get? cont k = some e) ∧
    (∀ k ∈ pre, (Dict.get? st (agentOf k)).isSome) ∧ (st.map Prod.fst).Nodup) h ⟨by simp, by simp, by simp⟩ ?_
  intro pre k st st' _ ⟨i1, i2, i3⟩ hstep
  unfold stateStep at hstep
  split at hstep
  · next hs =>
    cases hstep
    refine ⟨fun a e he => ?_, fun k' hk' => ?_, i3⟩
    · obtain ⟨k', hk', h⟩ := i1 a e he
      exact ⟨k', by simp [hk'], h⟩
    · rcases List.mem_append.1 hk' with hk' | hk'
      · exact i2 k' hk'
      · rw [List.mem_singleton.1 hk']; exact hs
  · split at hstep
    · next e he =>
      cases hstep
      refine ⟨fun a e' he' => ?_, fun k' hk' => ?_, Dict.nodup_set i3 _ _⟩
      · rw [Dict.get?_set] at he'
        split at he'
        · next ha =>
          injection he' with he'
          exact ⟨k, by simp, ha, he' ▸ he⟩
        · obtain ⟨k', hk', h⟩ := i1 a e' he'
          exact ⟨k', by simp [hk'], h⟩
      · rw [Dict.get?_set]
        split
        · rfl
        · next hne =>
          rcases List.mem_append.1 hk' with hk' | hk'
          · exact i2 k' hk'
          · exact absurd (by rw [List.mem_singleton.1 hk']) hne
    · cases hstep

end

section
variable {K : Type} [Field K] [LinearOrder K]

theorem starCons_holds (σ : Text → K) (agent : Text) (vars : List Text) (s : StarSet K) (hl : vars.length = s.center.len) :
    ∃ cs, starCons agent vars (.one s) = .ok cs ∧ ((∀ c ∈ cs, Con.Holds σ c) ↔
      (∀ i < s.C.rows, ∑ j ∈ range s.basis.rows, s.C.at_ i j * σ (alphaName agent j) ≤ s.g.at_ i) ∧
      ∀ d < s.center.len, σ (vars.getD d []) = s.center.at_ d + ∑ j ∈ range s.basis.rows, σ (alphaName agent j) * s.basis.at_ j d) := by
  refine ⟨_, by unfold starCons; dsimp only; rw [if_neg (by omega)], ?_⟩
  simp only [List.mem_append, List.mem_map, List.mem_range]
  have e1 : ∀ d, Con.Holds σ (Con.eq (s.center.at_ d) ((List.range s.basis.rows).map (fun j => (s.basis.at_ j d, alphaName agent j))) (vars.getD d [])) ↔
      σ (vars.getD d []) = s.center.at_ d + ∑ j ∈ range s.basis.rows, σ (alphaName agent j) * s.basis.at_ j d := by
    intro d
    simp only [Con.Holds, List.map_map]
    have : (List.range s.basis.rows).map ((fun t : K × Text => t.1 * σ t.2) ∘ fun j => (s.basis.at_ j d, alphaName agent j)) =
        (List.range s.basis.rows).map (fun j => σ (alphaName agent j) * s.basis.at_ j d) := List.map_congr_left (fun j _ => by simp [mul_comm])
    rw [this, sum_range_list]
    exact eq_comm
  have e2 : ∀ i, Con.Holds σ (Con.le ((List.range s.basis.rows).map (fun j => (s.C.at_ i j, alphaName agent j))) (s.g.at_ i)) ↔
      ∑ j ∈ range s.basis.rows, s.C.at_ i j * σ (alphaName agent j) ≤ s.g.at_ i := by
    intro i
    simp only [Con.Holds, List.map_map]
    have : (List.range s.basis.rows).map ((fun t : K × Text => t.1 * σ t.2) ∘ fun j => (s.C.at_ i j, alphaName agent j)) =
        (List.range s.basis.rows).map (fun j => s.C.at_ i j * σ (alphaName agent j)) := rfl
    rw [this, sum_range_list]
  constructor
  · intro h
    exact ⟨fun i hi => (e2 i).1 (h _ (.inr ⟨i, hi, rfl⟩)), fun d hd => (e1 d).1 (h _ (.inl ⟨d, hd, rfl⟩))⟩
  · rintro ⟨h1, h2⟩ c (⟨d, hd, rfl⟩ | ⟨i, hi, rfl⟩)
    · exact (e1 d).2 (h2 d hd)
    · exact (e2 i).2 (h1 i hi)

/-- What the constraints of the query say. -/
theorem allCons_spec (w : Agents K) (hu : Unmistakable w) (hp : Proper w) (cont : Dict Text (Entry K)) (hg : Good w cont) (z : ZFml K) (cs : List (Con K))
    (hkeys : ∀ k ∈ z.keys, (∃ v ∈ w.vars, k = .attr "ego" v) ∨ (∃ i < w.stars.length, ∃ v ∈ w.ovars, k = .elem w.list i v))
    (hin : ∀ k ∈ z.keys, (Dict.get? cont (keyText k)).isSome) (h : allCons cont z = .ok cs) :
    ∃ (e : Prop) (o : Nat → Prop), ((∃ v, Key.attr "ego" v ∈ z.keys) → e) ∧ (∀ i v, Key.elem w.list i v ∈ z.keys → o i) ∧
      (∀ i, o i → i < w.stars.length) ∧
      ∀ σ : Text → K, (∀ c ∈ cs, Con.Holds σ c) ↔
        (e → (∀ i < w.star.C.rows, ∑ j ∈ range w.star.basis.rows, w.star.C.at_ i j * σ (slotName w (.egoCoef j)) ≤ w.star.g.at_ i) ∧
          ∀ d < w.vars.length, σ (slotName w (.ego d)) = w.star.center.at_ d + ∑ j ∈ range w.star.basis.rows, σ (slotName w (.egoCoef j)) * w.star.basis.at_ j d) ∧
        ∀ i s, w.stars[i]? = some s → o i →
          (∀ r < s.C.rows, ∑ j ∈ range s.basis.rows, s.C.at_ r j * σ (slotName w (.otherCoef i j)) ≤ s.g.at_ r) ∧
          ∀ d < w.ovars.length, σ (slotName w (.other i d)) = s.center.at_ d + ∑ j ∈ range s.basis.rows, σ (slotName w (.otherCoef i j)) * s.basis.at_ j d := by
  obtain ⟨d1, d2, d3⟩ := hu.dots
  obtain ⟨st, hst, h⟩ := (bind_ok_iff _ _ _).1 h
  obtain ⟨css, hcss, rfl⟩ := (map_ok_iff _ _ _).1 h
  obtain ⟨s1, s2, s3⟩ := agentStates_spec cont _ st hst
  have hf := (mapM_ok_iff _ _ _).1 hcss
  have hegoA : ∀ j, alphaName "ego".toList j = slotName w (.egoCoef j) := by
    intro j
    have : "ego".toList ++ "_alpha_".toList = "ego_alpha_".toList := by decide +kernel
    exact congrArg (fun t : Text => t ++ Nat.toDigits 10 (j + 1)) this
  -- every agent in the query
  have hag : ∀ a e, Dict.get? st a = some e → (a = "ego".toList ∧ e = .one w.star) ∨
      (∃ i s, w.stars[i]? = some s ∧ a = elemText w.list.toList i ∧ e = .one s ∧ w.ovars ≠ []) := by
    intro a e he
    obtain ⟨k, hk, h1, h2⟩ := s1 a e he
    rcases hg.entries k e h2 with ⟨v, hv, rfl, rfl⟩ | ⟨v, hv, rfl, rfl⟩ | ⟨i, s, hi, v, hv, rfl, rfl⟩
    · rw [agentOf_dotted _ _ dot_ego] at h1
      exact .inl ⟨h1.symm, rfl⟩
    · obtain ⟨c, hc, hc'⟩ := forall₂_mem_left hf (Dict.mem_of_get? he)
      obtain ⟨vars, -, h⟩ := (bind_ok_iff _ _ _).1 hc'
      cases h
    · rw [agentOf_dotted _ _ (dot_elemText _ i d3)] at h1
      exact .inr ⟨i, s, hi, h1.symm, rfl, List.ne_nil_of_mem hv⟩
  have hsym : ∀ k ∈ z.keys, keyText k ∈ symbols cont z := by
    intro k hk
    refine List.mem_filter.2 ⟨(Dict.isSome_get?_iff _ _).1 (hin k hk), ?_⟩
    rw [List.any_eq_true]
    exact ⟨k, hk, by simp⟩
  refine ⟨(Dict.get? st "ego".toList).isSome = true, fun i => i < w.stars.length ∧ (Dict.get? st (elemText w.list.toList i)).isSome = true, ?_, ?_,
    fun i h => h.1, ?_⟩
  · rintro ⟨v, hv⟩
    have := s2 _ (hsym _ hv)
    rwa [show keyText (.attr "ego" v) = dotted "ego".toList v.toList from rfl, agentOf_dotted _ _ dot_ego] at this
  · intro i v hv
    have := s2 _ (hsym _ hv)
    rw [show keyText (.elem w.list i v) = dotted (elemText w.list.toList i) v.toList from rfl, agentOf_dotted _ _ (dot_elemText _ i d3)] at this
    rcases hkeys _ hv with ⟨_, _, h⟩ | ⟨i', hi', v', _, h⟩
    · cases h
    · injection h with _ h2 _
      exact ⟨h2 ▸ hi', this⟩
  · intro σ
    have hflat : (∀ c ∈ css.flatten, Con.Holds σ c) ↔ ∀ cs ∈ css, ∀ c ∈ cs, Con.Holds σ c := by
      simp only [List.mem_flatten]
      exact ⟨fun h cs hcs c hc => h c ⟨cs, hcs, hc⟩, fun h c ⟨cs, hcs, hc⟩ => h cs hcs c hc⟩
    rw [hflat]
    -- the constraints of the agent itself, and of another agent
    have hE : ∃ cs, consOf cont ("ego".toList, .one w.star) = .ok cs ∧ ((∀ c ∈ cs, Con.Holds σ c) ↔
        (∀ i < w.star.C.rows, ∑ j ∈ range w.star.basis.rows, w.star.C.at_ i j * σ (slotName w (.egoCoef j)) ≤ w.star.g.at_ i) ∧
          ∀ d < w.vars.length, σ (slotName w (.ego d)) = w.star.center.at_ d + ∑ j ∈ range w.star.basis.rows, σ (slotName w (.egoCoef j)) * w.star.basis.at_ j d) := by
      obtain ⟨cs, h1, h2⟩ := starCons_holds σ "ego".toList (w.vars.map (fun v => "ego_".toList ++ v.toList)) w.star (by rw [List.length_map, hp.dim])
      refine ⟨cs, (bind_ok_iff _ _ _).2 ⟨_, agentVars_ego w hu cont hg, h1⟩, h2.trans ?_⟩
      simp only [hegoA, hp.dim]
      refine and_congr_right (fun _ => forall_congr' (fun d => forall_congr' (fun hd => ?_)))
      rw [name_ego w d hd, getD_lt _ d _ (by rw [List.length_map]; exact hd), List.getElem_map]
    have hO : ∀ i s, w.stars[i]? = some s → w.ovars ≠ [] → ∃ cs, consOf cont (elemText w.list.toList i, .one s) = .ok cs ∧ ((∀ c ∈ cs, Con.Holds σ c) ↔
        (∀ r < s.C.rows, ∑ j ∈ range s.basis.rows, s.C.at_ r j * σ (slotName w (.otherCoef i j)) ≤ s.g.at_ r) ∧
          ∀ d < w.ovars.length, σ (slotName w (.other i d)) = s.center.at_ d + ∑ j ∈ range s.basis.rows, σ (slotName w (.otherCoef i j)) * s.basis.at_ j d) := by
      intro i s hi hov
      have hdim := hp.dims s (List.mem_of_getElem? hi)
      obtain ⟨cs, h1, h2⟩ := starCons_holds σ (elemText w.list.toList i) (w.ovars.map (fun v => elemText w.list.toList i ++ '_' :: v.toList)) s
        (by rw [List.length_map, hdim])
      refine ⟨cs, (bind_ok_iff _ _ _).2 ⟨_, agentVars_elem w hu cont hg i (List.getElem?_eq_some_iff.1 hi).1 hov, h1⟩, h2.trans ?_⟩
      have hA : ∀ j, alphaName (elemText w.list.toList i) j = slotName w (.otherCoef i j) := fun j => rfl
      simp only [hA, hdim]
      refine and_congr_right (fun _ => forall_congr' (fun d => forall_congr' (fun hd => ?_)))
      rw [name_other w i d hd, getD_lt _ d _ (by rw [List.length_map]; exact hd), List.getElem_map]
    constructor
    · intro hall
      constructor
      · intro he
        obtain ⟨e, he⟩ := Option.isSome_iff_exists.1 he
        obtain ⟨cs, hcs, hok⟩ := forall₂_mem_left hf (Dict.mem_of_get? he)
        rcases hag _ _ he with ⟨-, rfl⟩ | ⟨i, s, _, h, _⟩
        · obtain ⟨cs', h1, h2⟩ := hE
          rw [h1] at hok
          injection hok with hok
          subst hok
          exact h2.1 (hall _ hcs)
        · exact absurd h.symm (elem_ne_ego w i)
      · rintro i s hi ⟨hlt, he⟩
        obtain ⟨e, he⟩ := Option.isSome_iff_exists.1 he
        obtain ⟨cs, hcs, hok⟩ := forall₂_mem_left hf (Dict.mem_of_get? he)
        rcases hag _ _ he with ⟨h, -⟩ | ⟨i', s', hi', h, rfl, hov⟩
        · exact absurd h (elem_ne_ego w i)
        · obtain ⟨v, hv⟩ := List.exists_mem_of_ne_nil _ hov
          have hii : i = i' := (elemText_inj w hu i i' hlt (List.getElem?_eq_some_iff.1 hi').1 v v hv hv (by rw [h])).1
          subst hii
          rw [hi] at hi'
          cases hi'
          obtain ⟨cs', h1, h2⟩ := hO i s hi hov
          rw [h1] at hok
          injection hok with hok
          subst hok
          exact h2.1 (hall _ hcs)
    · rintro ⟨hego, hoth⟩ cs hcs
      obtain ⟨⟨a, e⟩, hae, hok⟩ := forall₂_mem_right hf hcs
      have he := Dict.get?_of_mem s3 hae
      rcases hag _ _ he with ⟨rfl, rfl⟩ | ⟨i, s, hi, rfl, rfl, hov⟩
      · obtain ⟨cs', h1, h2⟩ := hE
        rw [h1] at hok
        injection hok with hok
        subst hok
        exact h2.2 (hego (by rw [he]; rfl))
      · obtain ⟨cs', h1, h2⟩ := hO i s hi hov
        rw [h1] at hok
        injection hok with hok
        subst hok
        exact h2.2 (hoth i s hi ⟨(List.getElem?_eq_some_iff.1 hi).1, by rw [he]; rfl⟩)

/-! ### states and values of names -/

/-- The value of a quantity. -/
def slotVal (w : Agents K) (ρ : State K) (α : Nat → K) (β : Nat → Nat → K) : Slot → K
  | .ego d => toNum (ρ (.attr "ego" (w.vars.getD d "")))
  | .other i d => toNum (ρ (.elem w.list i (w.ovars.getD d "")))
  | .egoCoef j => α j
  | .otherCoef i j => β i j

theorem exists_values (w : Agents K) (hu : Unmistakable w) (ρ : State K) (α : Nat → K) (β : Nat → Nat → K) :
    ∃ σ : Text → K, ∀ s ∈ slots w, σ (slotName w s) = slotVal w ρ α β s := by
  classical
  refine ⟨fun t => if h : ∃ s ∈ slots w, slotName w s = t then slotVal w ρ α β h.choose else 0, fun s hs => ?_⟩
  have h : ∃ s' ∈ slots w, slotName w s' = slotName w s := ⟨s, hs, rfl⟩
  show (if h : ∃ s' ∈ slots w, slotName w s' = slotName w s then slotVal w ρ α β h.choose else 0) = _
  rw [dif_pos h]
  rw [slot_inj w hu h.choose_spec.1 hs h.choose_spec.2]

theorem under_ego (w : Agents K) (hu : Unmistakable w) (d : Nat) (h : d < w.vars.length) :
    under (keyText (.attr "ego" w.vars[d])) = slotName w (.ego d) := by
  rw [show keyText (.attr "ego" w.vars[d]) = dotted "ego".toList w.vars[d].toList from rfl,
    under_dotted _ _ dot_ego (hu.dots.1 _ (List.getElem_mem h)), name_ego w d h]
  have : "ego_".toList = "ego".toList ++ ['_'] := by decide +kernel
  rw [this, List.append_assoc]
  rfl

theorem under_elem (w : Agents K) (hu : Unmistakable w) (i d : Nat) (h : d < w.ovars.length) :
    under (keyText (.elem w.list i w.ovars[d])) = slotName w (.other i d) := by
  rw [show keyText (.elem w.list i w.ovars[d]) = dotted (elemText w.list.toList i) w.ovars[d].toList from rfl,
    under_dotted _ _ (dot_elemText _ i hu.dots.2.2) (hu.dots.2.1 _ (List.getElem_mem h)), name_other w i d h]

/-- A state in the star sets gives values of the names that satisfy all constraints. -/
theorem values_of_state (w : Agents K) (hu : Unmistakable w) (hp : Proper w) (cont : Dict Text (Entry K)) (hg : Good w cont) (z : ZFml K) (cs : List (Con K))
    (hkeys : ∀ k ∈ z.keys, (∃ v ∈ w.vars, k = .attr "ego" v) ∨ (∃ i < w.stars.length, ∃ v ∈ w.ovars, k = .elem w.list i v))
    (hin : ∀ k ∈ z.keys, (Dict.get? cont (keyText k)).isSome) (h : allCons cont z = .ok cs) (ρ : State K) (hρ : InStars w ρ) :
    ∃ σ : Text → K, (∀ c ∈ cs, Con.Holds σ c) ∧ ∀ k ∈ z.keys, look (stateOf σ) k = look ρ k := by
  obtain ⟨e, o, -, -, -, hiff⟩ := allCons_spec w hu hp cont hg z cs hkeys hin h
  obtain ⟨⟨x, ⟨α, a1, a2⟩, hx⟩, hρ2⟩ := hρ
  have hβ : ∀ i, ∃ β : Nat → K, ∀ s, w.stars[i]? = some s → (∀ r < s.C.rows, ∑ j ∈ range s.basis.rows, s.C.at_ r j * β j ≤ s.g.at_ r) ∧
      ∀ (d : Nat) (v : String), w.ovars[d]? = some v → ρ (.elem w.list i v) = .num (s.center.at_ d + ∑ j ∈ range s.basis.rows, β j * s.basis.at_ j d) := by
    intro i
    by_cases hi : i < w.stars.length
    · obtain ⟨y, ⟨β, b1, b2⟩, hy⟩ := hρ2 i _ (List.getElem?_eq_getElem hi)
      refine ⟨β, fun s hs => ?_⟩
      rw [List.getElem?_eq_getElem hi] at hs
      cases hs
      refine ⟨b1, fun d v hd => ?_⟩
      rw [hy d v hd, b2 d (by rw [hp.dims _ (List.getElem_mem hi)]; exact (List.getElem?_eq_some_iff.1 hd).1)]
    · exact ⟨fun _ => 0, fun s hs => absurd (List.getElem?_eq_some_iff.1 hs).1 hi⟩
  choose β hβ using hβ
  obtain ⟨σ, hσ⟩ := exists_values w hu ρ α β
  have vE : ∀ (d : Nat) (hd : d < w.vars.length), σ (slotName w (.ego d)) = x d ∧ ρ (.attr "ego" w.vars[d]) = .num (x d) := by
    intro d hd
    have h1 := hx d _ (List.getElem?_eq_getElem hd)
    refine ⟨?_, h1⟩
    rw [hσ _ (slot_ego w d hd)]
    simp only [slotVal, getD_lt _ d _ hd, h1, toNum]
  have vO : ∀ (i d : Nat) (s : StarSet K) (hi : w.stars[i]? = some s) (hd : d < w.ovars.length),
      σ (slotName w (.other i d)) = s.center.at_ d + ∑ j ∈ range s.basis.rows, β i j * s.basis.at_ j d ∧
      ρ (.elem w.list i w.ovars[d]) = .num (s.center.at_ d + ∑ j ∈ range s.basis.rows, β i j * s.basis.at_ j d) := by
    intro i d s hi hd
    have h1 := (hβ i s hi).2 d _ (List.getElem?_eq_getElem hd)
    refine ⟨?_, h1⟩
    rw [hσ _ (slot_other w i d (List.getElem?_eq_some_iff.1 hi).1 hd)]
    simp only [slotVal, getD_lt _ d _ hd, h1, toNum]
  refine ⟨σ, (hiff σ).2 ⟨fun _ => ⟨fun i hi => ?_, fun d hd => ?_⟩, fun i s hi _ => ⟨fun r hr => ?_, fun d hd => ?_⟩⟩, fun k hk => ?_⟩
  · rw [Finset.sum_congr rfl (fun j hj => by rw [hσ _ (slot_egoCoef w j (Finset.mem_range.1 hj))])]
    exact a1 i hi
  · rw [(vE d hd).1, Finset.sum_congr rfl (fun j hj => by rw [hσ _ (slot_egoCoef w j (Finset.mem_range.1 hj))])]
    exact a2 d (by rw [hp.dim]; exact hd)
  · rw [Finset.sum_congr rfl (fun j hj => by rw [hσ _ (slot_otherCoef w i j s hi (Finset.mem_range.1 hj))])]
    exact (hβ i s hi).1 r hr
  · rw [(vO i d s hi hd).1]
    exact congrArg _ (Finset.sum_congr rfl (fun j hj => by rw [hσ _ (slot_otherCoef w i j s hi (Finset.mem_range.1 hj))]; rfl))
  · rcases hkeys k hk with ⟨v, hv, rfl⟩ | ⟨i, hi, v, hv, rfl⟩
    · obtain ⟨d, hd, rfl⟩ := List.getElem_of_mem hv
      simp only [look, stateOf]
      rw [under_ego w hu d hd, (vE d hd).1, (vE d hd).2]
    · obtain ⟨d, hd, rfl⟩ := List.getElem_of_mem hv
      simp only [look, stateOf]
      rw [under_elem w hu i d hd, (vO i d _ (List.getElem?_eq_getElem hi) hd).1, (vO i d _ (List.getElem?_eq_getElem hi) hd).2]

/-- Values of the names that satisfy all constraints give a state in the star sets. -/
theorem state_of_values (w : Agents K) (hu : Unmistakable w) (hp : Proper w) (cont : Dict Text (Entry K)) (hg : Good w cont) (z : ZFml K) (cs : List (Con K))
    (hkeys : ∀ k ∈ z.keys, (∃ v ∈ w.vars, k = .attr "ego" v) ∨ (∃ i < w.stars.length, ∃ v ∈ w.ovars, k = .elem w.list i v))
    (hin : ∀ k ∈ z.keys, (Dict.get? cont (keyText k)).isSome) (h : allCons cont z = .ok cs) (σ : Text → K) (hσ : ∀ c ∈ cs, Con.Holds σ c) :
    ∃ ρ : State K, InStars w ρ ∧ ∀ k ∈ z.keys, look (stateOf σ) k = look ρ k := by
  obtain ⟨e, o, he, ho, -, hiff⟩ := allCons_spec w hu hp cont hg z cs hkeys hin h
  obtain ⟨hE, hO⟩ := (hiff σ).1 hσ
  have hx : ∃ x, InStar w.star x ∧ (e → ∀ d < w.vars.length, x d = σ (slotName w (.ego d))) := by
    by_cases h : e
    · obtain ⟨h1, h2⟩ := hE h
      exact ⟨fun d => σ (slotName w (.ego d)), ⟨_, h1, fun d hd => h2 d (by rw [← hp.dim]; exact hd)⟩, fun _ d _ => rfl⟩
    · obtain ⟨x, hx⟩ := hp.point
      exact ⟨x, hx, fun h' => absurd h' h⟩
  obtain ⟨x, hx1, hx2⟩ := hx
  have hy : ∀ i, ∃ y : Nat → K, ∀ s, w.stars[i]? = some s → InStar s y ∧ (o i → ∀ d < w.ovars.length, y d = σ (slotName w (.other i d))) := by
    intro i
    by_cases hi : i < w.stars.length
    · have hs := List.getElem?_eq_getElem hi
      by_cases h : o i
      · obtain ⟨h1, h2⟩ := hO i _ hs h
        refine ⟨fun d => σ (slotName w (.other i d)), fun s hs' => ?_⟩
        rw [hs] at hs'
        cases hs'
        exact ⟨⟨_, h1, fun d hd => h2 d (by rw [← hp.dims _ (List.getElem_mem hi)]; exact hd)⟩, fun _ d _ => rfl⟩
      · obtain ⟨y, hy⟩ := hp.points _ (List.getElem_mem hi)
        refine ⟨y, fun s hs' => ?_⟩
        rw [hs] at hs'
        cases hs'
        exact ⟨hy, fun h' => absurd h' h⟩
    · exact ⟨fun _ => 0, fun s hs => absurd (List.getElem?_eq_some_iff.1 hs).1 hi⟩
  choose y hy using hy
  have hidx : ∀ (l : List String), l.Nodup → ∀ (d : Nat) (v : String), l[d]? = some v → l.idxOf v = d := by
    intro l hl d v hd
    obtain ⟨hlt, rfl⟩ := List.getElem?_eq_some_iff.1 hd
    exact hl.idxOf_getElem d hlt
  let ρ : State K := fun k => match k with
    | .attr _ v => .num (x (w.vars.idxOf v))
    | .elem _ i v => .num (y i (w.ovars.idxOf v))
    | _ => .num 0
  refine ⟨ρ, ⟨⟨x, hx1, fun d v hd => ?_⟩, fun i s hi => ⟨y i, (hy i s hi).1, fun d v hd => ?_⟩⟩, fun k hk => ?_⟩
  · show Val.num (x (w.vars.idxOf v)) = _
    rw [hidx _ (vars_nodup w hu) d v hd]
  · show Val.num (y i (w.ovars.idxOf v)) = _
    rw [hidx _ (ovars_nodup w hu (List.ne_nil_of_mem (List.mem_of_getElem? hi))) d v hd]
  · rcases hkeys k hk with ⟨v, hv, rfl⟩ | ⟨i, hi, v, hv, rfl⟩
    · obtain ⟨d, hd, rfl⟩ := List.getElem_of_mem hv
      show Val.num (σ (under (keyText (.attr "ego" w.vars[d])))) = Val.num (x (w.vars.idxOf w.vars[d]))
      rw [under_ego w hu d hd, hidx _ (vars_nodup w hu) d _ (List.getElem?_eq_getElem hd), hx2 (he ⟨_, hk⟩) d hd]
    · obtain ⟨d, hd, rfl⟩ := List.getElem_of_mem hv
      show Val.num (σ (under (keyText (.elem w.list i w.ovars[d])))) = Val.num (y i (w.ovars.idxOf w.ovars[d]))
      rw [under_elem w hu i d hd, hidx _ (ovars_nodup w hu (List.ne_nil_of_length_pos (by omega))) d _ (List.getElem?_eq_getElem hd),
        (hy i _ (List.getElem?_eq_getElem hi)).2 (ho i _ hk) d hd]

end

end Verif.Proofs.StarGrd
