import Verif.Proofs.CallbackLemmas

/-! Managers as a set, and the number of whitelisted providers. -/

namespace LS
open Spec

theorem replace_perm {a last : Addr} : ∀ {l : List Addr}, l.Nodup → a ∈ l →
    (l.map (fun x => if x = a then last else x)).Perm (last :: l.erase a)
  | [], _, h => by simp at h
  | x :: l, hn, h => by
    rw [List.nodup_cons] at hn
    by_cases hx : x = a
    · subst hx
      rw [List.map_cons, if_pos rfl, List.erase_cons_head]
      have : l.map (fun y => if y = x then last else y) = l := by
        refine (List.map_congr_left fun y hy => if_neg ?_).trans (List.map_id _)
        rintro rfl; exact hn.1 hy
      rw [this]
    · have ha : a ∈ l := by
        rcases List.mem_cons.1 h with h | h
        · exact absurd h.symm hx
        · exact h
      rw [List.map_cons, if_neg hx, List.erase_cons_tail (by simpa using hx)]
      exact ((replace_perm hn.2 ha).cons x).trans (List.Perm.swap ..)

theorem swapRemove_perm {l : List Addr} {a : Addr} (hn : l.Nodup) : (swapRemove l a).Perm (l.erase a) := by
  unfold swapRemove
  by_cases ha : a ∈ l
  swap
  · rw [if_neg ha, List.erase_of_not_mem ha]
  rw [if_pos ha]
  rcases List.eq_nil_or_concat l with rfl | ⟨init, last, rfl⟩
  · simp at ha
  · rw [List.concat_eq_append] at *
    rw [List.getLast?_append_cons, List.getLast?_singleton]
    have hnd := List.nodup_append.1 hn
    simp only [List.dropLast_concat]
    by_cases hl : last = a
    · subst hl
      rw [if_pos rfl]
      have : last ∉ init := fun h => hnd.2.2 last h last (by simp) rfl
      rw [List.erase_append_right _ this]
      simp
    · rw [if_neg hl]
      have ha' : a ∈ init := by
        rcases List.mem_append.1 ha with h | h
        · exact h
        · rw [List.mem_singleton] at h; exact absurd h.symm hl
      rw [List.erase_append_left _ ha']
      exact (replace_perm hnd.1 ha').trans (List.perm_append_singleton ..).symm

theorem mem_swapRemove {l : List Addr} {a x : Addr} (hn : l.Nodup) : x ∈ swapRemove l a ↔ x ∈ l ∧ x ≠ a := by
  rw [(swapRemove_perm hn).mem_iff, hn.mem_erase_iff, and_comm]

theorem mem_foldInsert {as : List Addr} {x : Addr} : ∀ {l : List Addr}, x ∈ as.foldl setInsert l ↔ x ∈ l ∨ x ∈ as := by
  induction as with
  | nil => simp
  | cons a as ih =>
    intro l
    rw [List.foldl_cons, ih, mem_setInsert, List.mem_cons, or_assoc]

theorem nodup_foldInsert {as : List Addr} : ∀ {l : List Addr}, l.Nodup → (as.foldl setInsert l).Nodup := by
  induction as with
  | nil => exact id
  | cons a as ih => intro l h; exact ih (nodup_setInsert h)

theorem reachable_managers {w : World} (h : Reachable w) : w.st.managers.Nodup := by
  induction h with
  | init h =>
    obtain ⟨self, owner, contracts, epoch, funds, acc, fees, rpe, mr, ms, ma, ub, _, _, rfl⟩ := isInit_eq h
    exact List.nodup_nil
  | @step w w' op hr hs ih =>
    rcases (frame_step op (reachable_regInv hr) (reachable_issInv hr) hs).cfg with h | ⟨cmd, _, h⟩
    · have : (config w'.st).managers = (config w.st).managers := by rw [h]
      show (config w'.st).managers.Nodup
      rw [this]; exact ih
    · cases cmd <;> simp only [applyOwnerCmd, bind_ok, req_ok, exists_const, Except.ok.injEq] at h
      case maxAddresses => obtain ⟨_, h⟩ := h; rw [← h]; exact ih
      case maxSelected => obtain ⟨_, h⟩ := h; rw [← h]; exact ih
      case addManagers => rw [← h]; exact nodup_foldInsert ih
      case removeManager a => rw [← h]; exact (swapRemove_perm ih).nodup_iff.2 (ih.erase _)
      all_goals rw [← h]; exact ih

/-- The number of whitelistings in flight. -/
def wlCount (fl : List Flight) : Nat := fl.countP fun f => match f with | .whitelist .. => true | _ => false

theorem nodup_mem_length {l l' : List Addr} (h : l.Nodup) (h' : l'.Nodup) (hm : ∀ a, a ∈ l' ↔ a ∈ l) : l'.length = l.length :=
  ((List.perm_ext_iff_of_nodup h' h).2 hm).length_eq

theorem wlCount_append (l l' : List Flight) : wlCount (l ++ l') = wlCount l + wlCount l' := by
  unfold wlCount; exact List.countP_append

theorem wlCount_erase {l : List Flight} {i : Nat} {f : Flight} (h : l[i]? = some f) :
    wlCount l = wlCount (l.eraseIdx i) + wlCount [f] := by
  unfold wlCount
  rw [← (eraseIdx_perm h).countP_eq, ← List.singleton_append, List.countP_append]
  omega

/-- At most `k` whitelistings are under way at a time and the limit on the number of providers is never lowered. -/
theorem listBound {k : Nat} {w : World} (h : ReachableBy (fun w op w' =>
      (∀ c v p ad ts cap n apy, op = .whitelist c v p ad ts cap n apy → wlCount w.flights < k) ∧
      w.st.maxDelegationAddresses ≤ w'.st.maxDelegationAddresses) w) :
    w.st.delegList.length + wlCount w.flights ≤ w.st.maxDelegationAddresses + k := by
  obtain ⟨w0, h0, ht⟩ := h
  induction ht with
  | nil =>
    obtain ⟨self, owner, contracts, epoch, funds, acc, fees, rpe, mr, ms, ma, ub, _, _, rfl⟩ := isInit_eq h0
    exact Nat.zero_le _
  | @snoc w w' op ht hs hp ih =>
    obtain ⟨hp1, hp2⟩ := hp
    have hr : Reachable w := reachable_trace (.init h0) ht
    have hreg := reachable_regInv hr
    have hr0 : RegOk w.st.lsToken w.st.unstakeToken w.st.delegList w.st.undelegList w.st.data w.flights w.dead := hreg
    have hr1 : RegOk w'.st.lsToken w'.st.unstakeToken w'.st.delegList w'.st.undelegList w'.st.data w'.flights w'.dead :=
      regInv_step op hreg hs
    have hf := fstep hreg hs
    cases lstep hreg hs with
    | joined i g r p x u hop hfl ht hl =>
      have hfl' : w'.flights = w.flights.eraseIdx i := by
        subst hop
        obtain ⟨f, hf1, hcb | ⟨_, rfl⟩⟩ := deliver_ok hs
        · exact (runCallback_flights hcb).1
        · rfl
      have h1 := wlCount_erase hfl
      have h2 : wlCount [Flight.whitelist p x u] = 1 := rfl
      have h3 : w'.st.delegList.length ≤ w.st.delegList.length + 1 := by
        rw [hl]; unfold setInsert; split <;> simp
      rw [hfl']
      omega
    | same hm =>
      have hlen := nodup_mem_length hr0.nd1 hr1.nd1 hm
      rw [hlen]
      generalize w'.flights = fl at hf
      generalize w'.dead = dd at hf
      cases hf with
      | same => omega
      | delegated _ _ sels hop' =>
        have : wlCount (sels.map fun s => Flight.delegate s.address s.amount) = 0 := by
          unfold wlCount; rw [List.countP_map]; exact List.countP_eq_zero.2 (by simp)
        rw [wlCount_append]; omega
      | undelegated _ _ sels hop' =>
        have : wlCount (sels.map fun s => Flight.undelegate s.address s.amount) = 0 := by
          unfold wlCount; rw [List.countP_map]; exact List.countP_eq_zero.2 (by simp)
        rw [wlCount_append]; omega
      | withdrawn c p hop' => rw [wlCount_append]; have : wlCount [Flight.withdraw p] = 0 := rfl; omega
      | claimed c hop' => rw [wlCount_append]; have : wlCount [Flight.claim w.st.delegList] = 0 := rfl; omega
      | whitelisted c v p ad ts cap n apy hop' =>
        have h1 := hp1 _ _ _ _ _ _ _ _ hop'
        subst hop'
        obtain ⟨_, _, h2, _⟩ := whitelist_ok hs
        rw [wlCount_append]; have : wlCount [Flight.whitelist p v c] = 1 := rfl; omega
      | settled j o f w1 hop' hf' => have := wlCount_erase hf'; omega
      | died j o f e hop' hf' => have := wlCount_erase hf'; omega
      | starved j o f hop' hf' => have := wlCount_erase hf'; omega

end LS
