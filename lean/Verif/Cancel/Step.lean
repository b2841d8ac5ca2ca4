import Verif.Cancel.Lemmas

namespace Verif.Cancel
open Verif.Common
open Verif.CriticalSection (State lock unlock)

set_option maxHeartbeats 2000000 in
theorem inv_step {s s' : St} (hI : Inv s) (hs : Step s s') (hub : s'.ub = false) : Inv s' := by
  have hone := hI.one
  have hpre := hI.pre
  have hloop := hI.loop
  have hdone := hI.done
  have hsw := hI.sw
  have hns := hI.ns
  have hnd := hI.nodup
  have hlate := hI.late
  have hret := hI.ret
  cases hs with
  | callReg i h k hk hf =>
    have c1 := tok_set (.reg h s.cancelled :: k) hk
    refine ⟨?one, ?pre, ?loop, ?done, ?sw, ?ns, ?nodup, ?late, ?ret⟩
    case one =>
      grind [b2n, trues, sumBy_cons, tok]
    case pre =>
      grind
    case loop =>
      grind
    case done =>
      grind
    case sw =>
      grind
    case ns =>
      intro hn
      obtain rfl := free0 hI hn hk hf
      obtain ⟨a, b, c, d⟩ := hns hn
      exact ⟨a, b, by grind, CS_same d hk (by simp [inl]) rfl rfl⟩
    case nodup =>
      exact hnd
    case late =>
      grind
    case ret =>
      grind
  | callUnreg i h k hk hf =>
    have c1 := tok_set (.unreg h :: k) hk
    refine ⟨?one, ?pre, ?loop, ?done, ?sw, ?ns, ?nodup, ?late, ?ret⟩
    case one =>
      grind [b2n, trues, sumBy_cons, tok]
    case pre =>
      grind
    case loop =>
      grind
    case done =>
      grind
    case sw =>
      grind
    case ns =>
      intro hn
      obtain rfl := free0 hI hn hk hf
      obtain ⟨a, b, c, d⟩ := hns hn
      exact ⟨a, b, by grind, CS_same d hk (by simp [inl]) rfl rfl⟩
    case nodup =>
      exact hnd
    case late =>
      grind
    case ret =>
      grind
  | callCancel i k hk hf =>
    have c1 := tok_set (.cancel :: k) hk
    refine ⟨?one, ?pre, ?loop, ?done, ?sw, ?ns, ?nodup, ?late, ?ret⟩
    case one =>
      grind [b2n, trues, sumBy_cons, tok]
    case pre =>
      grind
    case loop =>
      grind
    case done =>
      grind
    case sw =>
      grind
    case ns =>
      intro hn
      obtain rfl := free0 hI hn hk hf
      obtain ⟨a, b, c, d⟩ := hns hn
      exact ⟨a, b, by grind, CS_same d hk (by simp [inl]) rfl rfl⟩
    case nodup =>
      exact hnd
    case late =>
      grind
    case ret =>
      grind
  | regLock i h late k cs hk hl =>
    have c1 := tok_set (.regIn h late :: k) hk
    refine ⟨?one, ?pre, ?loop, ?done, ?sw, ?ns, ?nodup, ?late, ?ret⟩
    case one =>
      grind [b2n, trues, sumBy_cons, tok]
    case pre =>
      grind
    case loop =>
      grind
    case done =>
      grind
    case sw =>
      grind
    case ns =>
      intro hn
      obtain rfl := single hI hn hk
      obtain ⟨a, b, c, d⟩ := hns hn
      exact ⟨a, b, by grind, CS_lock d hk rfl rfl hl⟩
    case nodup =>
      exact hnd
    case late =>
      grind
    case ret =>
      grind
  | regCheck i h late k hk =>
    have c1 := tok_set ((if s.cancelled then .regOut h late false else .regAdd h late) :: k) hk
    refine ⟨?one, ?pre, ?loop, ?done, ?sw, ?ns, ?nodup, ?late, ?ret⟩
    case one =>
      grind [b2n, trues, sumBy_cons, tok]
    case pre =>
      grind
    case loop =>
      grind
    case done =>
      grind
    case sw =>
      grind
    case ns =>
      intro hn
      obtain rfl := single hI hn hk
      obtain ⟨a, b, c, d⟩ := hns hn
      exact ⟨a, b, by grind, CS_same d hk (by cases s.cancelled <;> simp [inl]) rfl rfl⟩
    case nodup =>
      exact hnd
    case late =>
      grind
    case ret =>
      grind
  | regDup i h late k hk hm h1 =>
    have c1 := tok_set (.regOut h late false :: k) hk
    refine ⟨?one, ?pre, ?loop, ?done, ?sw, ?ns, ?nodup, ?late, ?ret⟩
    case one =>
      grind [b2n, trues, sumBy_cons, tok]
    case pre =>
      grind
    case loop =>
      grind
    case done =>
      grind
    case sw =>
      grind
    case ns =>
      intro hn
      obtain rfl := single hI hn hk
      obtain ⟨a, b, c, d⟩ := hns hn
      exact ⟨a, b, by grind, CS_same d hk (by simp [inl]) rfl rfl⟩
    case nodup =>
      exact hnd
    case late =>
      grind
    case ret =>
      grind
  | regUb i h late k l hk h1 => cases hub
  | regAdd i h late k hk hm =>
    have c1 := tok_set (.regOut h late true :: k) hk
    refine ⟨?one, ?pre, ?loop, ?done, ?sw, ?ns, ?nodup, ?late, ?ret⟩
    case one =>
      grind [b2n, trues, sumBy_cons, tok]
    case pre =>
      grind
    case loop =>
      grind
    case done =>
      grind
    case sw =>
      grind
    case ns =>
      intro hn
      obtain rfl := single hI hn hk
      obtain ⟨a, b, c, d⟩ := hns hn
      exact ⟨a, by rw [live_reg, ← b], by grind, CS_same d hk (by simp [inl]) rfl rfl⟩
    case nodup =>
      have hn : s.swapped = false := by grind
      obtain ⟨a, b, c, d⟩ := hns hn
      rw [live_reg, ← b]
      rw [← b] at hnd
      grind
    case late =>
      grind
    case ret =>
      grind
  | regRet i h late r k hk =>
    have c1 := tok_set (k) hk
    refine ⟨?one, ?pre, ?loop, ?done, ?sw, ?ns, ?nodup, ?late, ?ret⟩
    case one =>
      grind [b2n, trues, sumBy_cons, tok]
    case pre =>
      grind
    case loop =>
      grind
    case done =>
      grind
    case sw =>
      grind
    case ns =>
      intro hn
      obtain rfl := single hI hn hk
      obtain ⟨a, b, c, d⟩ := hns hn
      exact ⟨a, b, by grind, CS_unlock d hk rfl rfl rfl⟩
    case nodup =>
      exact hnd
    case late =>
      grind
    case ret =>
      grind
  | unregLock i h k cs hk hl =>
    have c1 := tok_set (.unregIn h :: k) hk
    refine ⟨?one, ?pre, ?loop, ?done, ?sw, ?ns, ?nodup, ?late, ?ret⟩
    case one =>
      grind [b2n, trues, sumBy_cons, tok]
    case pre =>
      grind
    case loop =>
      grind
    case done =>
      grind
    case sw =>
      grind
    case ns =>
      intro hn
      obtain rfl := single hI hn hk
      obtain ⟨a, b, c, d⟩ := hns hn
      exact ⟨a, b, by grind, CS_lock d hk rfl rfl hl⟩
    case nodup =>
      exact hnd
    case late =>
      grind
    case ret =>
      grind
  | unregTake i h k hk hm =>
    have c1 := tok_set (.unregOut h true :: k) hk
    refine ⟨?one, ?pre, ?loop, ?done, ?sw, ?ns, ?nodup, ?late, ?ret⟩
    case one =>
      grind [b2n, trues, sumBy_cons, tok]
    case pre =>
      grind
    case loop =>
      grind
    case done =>
      grind
    case sw =>
      grind
    case ns =>
      intro hn
      obtain rfl := single hI hn hk
      obtain ⟨a, b, c, d⟩ := hns hn
      refine ⟨a, ?_, by grind, CS_same d hk (by simp [inl]) rfl rfl⟩
      rw [live_unreg, ← b]
      rw [← b] at hnd
      rw [hnd.erase_eq_filter h]; apply List.filter_congr; intro x _; by_cases e : x = h <;> simp [e]
    case nodup =>
      rw [live_unreg]
      exact hnd.filter _
    case late =>
      grind
    case ret =>
      grind
  | unregMiss i h k hk hm =>
    have c1 := tok_set (.unregOut h false :: k) hk
    refine ⟨?one, ?pre, ?loop, ?done, ?sw, ?ns, ?nodup, ?late, ?ret⟩
    case one =>
      grind [b2n, trues, sumBy_cons, tok]
    case pre =>
      grind
    case loop =>
      grind
    case done =>
      grind
    case sw =>
      grind
    case ns =>
      intro hn
      obtain rfl := single hI hn hk
      obtain ⟨a, b, c, d⟩ := hns hn
      exact ⟨a, b, by grind, CS_same d hk (by simp [inl]) rfl rfl⟩
    case nodup =>
      exact hnd
    case late =>
      grind
    case ret =>
      grind
  | unregRet i h r k hk =>
    have c1 := tok_set (k) hk
    refine ⟨?one, ?pre, ?loop, ?done, ?sw, ?ns, ?nodup, ?late, ?ret⟩
    case one =>
      grind [b2n, trues, sumBy_cons, tok]
    case pre =>
      grind
    case loop =>
      grind
    case done =>
      grind
    case sw =>
      grind
    case ns =>
      intro hn
      obtain rfl := single hI hn hk
      obtain ⟨a, b, c, d⟩ := hns hn
      exact ⟨a, b, by grind, CS_unlock d hk rfl rfl rfl⟩
    case nodup =>
      exact hnd
    case late =>
      grind
    case ret =>
      grind
  | cancelNo i k hk hc =>
    have c1 := tok_set (k) hk
    refine ⟨?one, ?pre, ?loop, ?done, ?sw, ?ns, ?nodup, ?late, ?ret⟩
    case one =>
      grind [b2n, trues, sumBy_cons, tok]
    case pre =>
      grind
    case loop =>
      grind
    case done =>
      grind
    case sw =>
      grind
    case ns =>
      intro hn
      obtain rfl := single hI hn hk
      obtain ⟨a, b, c, d⟩ := hns hn
      exact ⟨a, b, by grind, CS_same d hk (by simp [inl]) rfl rfl⟩
    case nodup =>
      exact hnd
    case late =>
      grind
    case ret =>
      grind
  | cancelYes i k hk hc =>
    have c1 := tok_set (.cLock :: k) hk
    refine ⟨?one, ?pre, ?loop, ?done, ?sw, ?ns, ?nodup, ?late, ?ret⟩
    case one =>
      grind [b2n, trues, sumBy_cons, tok]
    case pre =>
      grind
    case loop =>
      grind
    case done =>
      grind
    case sw =>
      grind
    case ns =>
      intro hn
      obtain rfl := single hI hn hk
      obtain ⟨a, b, c, d⟩ := hns hn
      exact ⟨a, b, by grind, CS_same d hk (by simp [inl]) rfl rfl⟩
    case nodup =>
      exact hnd
    case late =>
      grind
    case ret =>
      grind
  | cLock i k cs hk hl =>
    have c1 := tok_set (.cSwap :: k) hk
    refine ⟨?one, ?pre, ?loop, ?done, ?sw, ?ns, ?nodup, ?late, ?ret⟩
    case one =>
      grind [b2n, trues, sumBy_cons, tok]
    case pre =>
      grind
    case loop =>
      grind
    case done =>
      grind
    case sw =>
      grind
    case ns =>
      intro hn
      obtain rfl := single hI hn hk
      obtain ⟨a, b, c, d⟩ := hns hn
      exact ⟨a, b, by grind, CS_lock d hk rfl rfl hl⟩
    case nodup =>
      exact hnd
    case late =>
      grind
    case ret =>
      grind
  | cSwap i k hk =>
    have c1 := tok_set (.cLoop s.list :: k) hk
    refine ⟨?one, ?pre, ?loop, ?done, ?sw, ?ns, ?nodup, ?late, ?ret⟩
    case one =>
      grind [b2n, trues, sumBy_cons, tok]
    case pre =>
      intro j x hx hm
      have hn := hpre i _ hk (.inr List.mem_cons_self)
      have h1 := le_sumBy (sumBy tok) _ _ _ hx
      have h2 : 0 < sumBy tok x := by
        rcases hm with hm | hm <;> (have := le_sumBy_of_mem tok _ _ hm; simp only [tok] at this; omega)
      have hc := (uniq hI hk rfl).2.1
      rw [hc] at hone
      rcases get_set hx with ⟨rfl, rfl⟩ | ⟨e, hx'⟩
      · obtain rfl := single hI hn hk
        simp at hm
      · have h4 := add_le_sumBy (sumBy tok) _ _ _ _ _ e hk hx'
        rw [sumBy_cons] at h4
        have h5 : tok .cSwap = 1 := rfl
        have h6 : b2n true = 1 := rfl
        omega
    case loop =>
      have hn := hpre i _ hk (.inr List.mem_cons_self)
      obtain ⟨a, b, c, d⟩ := hns hn
      have u := uniq hI hk rfl
      intro j x p hx hm
      refine ⟨rfl, ?_⟩
      rcases get_set hx with ⟨rfl, rfl⟩ | ⟨e, hx⟩
      · rcases List.mem_cons.1 hm with e | e
        · cases e; show s.invoked ++ s.list = live s.log; rw [a, b]; rfl
        · exact absurd e (u.2.2.1 p)
      · exact absurd hm (u.2.2.2 j x e hx p)
    case done =>
      grind
    case sw =>
      intro _
      have hn := hpre i _ hk (.inr List.mem_cons_self)
      obtain rfl := single hI hn hk
      obtain ⟨a, b, c, d⟩ := hns hn
      have u := uniq hI hk rfl
      refine ⟨u.2.1, rfl, fun j x h l hx hm => ?_⟩
      rcases get_set hx with ⟨rfl, rfl⟩ | ⟨e, hx⟩
      · simp at hm
      · exact e (CS_only d hk rfl hx (List.any_eq_true.2 ⟨_, hm, rfl⟩))
    case ns =>
      intro h; cases h
    case nodup =>
      exact hnd
    case late =>
      grind
    case ret =>
      grind
  | cPop i h p k hk =>
    have c1 := tok_set (.cb h :: .cLoop p :: k) hk
    refine ⟨?one, ?pre, ?loop, ?done, ?sw, ?ns, ?nodup, ?late, ?ret⟩
    case one =>
      grind [b2n, trues, sumBy_cons, tok]
    case pre =>
      grind
    case loop =>
      have u := uniq hI hk rfl
      have v := hloop i _ _ hk List.mem_cons_self
      intro j x q hx hm
      refine ⟨v.1, ?_⟩
      rcases get_set hx with ⟨rfl, rfl⟩ | ⟨e, hx⟩
      · rcases List.mem_cons.1 hm with e | e
        · cases e
        · rcases List.mem_cons.1 e with e | e
          · cases e; show s.invoked ++ [h] ++ p = live s.log; rw [← v.2]; simp
          · exact absurd e (u.2.2.1 q)
      · exact absurd hm (u.2.2.2 j x e hx q)
    case done =>
      intro h; exact absurd h (uniq hI hk rfl).1
    case sw =>
      grind
    case ns =>
      intro hn
      exact absurd (hloop i _ _ hk List.mem_cons_self).1 (by simp [show s.swapped = false from hn])
    case nodup =>
      exact hnd
    case late =>
      grind
    case ret =>
      grind
  | cbRet i h k hk =>
    have c1 := tok_set (k) hk
    refine ⟨?one, ?pre, ?loop, ?done, ?sw, ?ns, ?nodup, ?late, ?ret⟩
    case one =>
      grind [b2n, trues, sumBy_cons, tok]
    case pre =>
      grind
    case loop =>
      grind
    case done =>
      grind
    case sw =>
      grind
    case ns =>
      intro hn
      grind
    case nodup =>
      exact hnd
    case late =>
      grind
    case ret =>
      grind
  | cEnd i k hk =>
    have c1 := tok_set (k) hk
    refine ⟨?one, ?pre, ?loop, ?done, ?sw, ?ns, ?nodup, ?late, ?ret⟩
    case one =>
      grind [b2n, trues, sumBy_cons, tok]
    case pre =>
      grind
    case loop =>
      grind
    case done =>
      intro _
      have v := hloop i _ _ hk List.mem_cons_self
      exact ⟨v.1, by have := v.2; simpa using this⟩
    case sw =>
      grind
    case ns =>
      intro hn
      exact absurd (hloop i _ _ hk List.mem_cons_self).1 (by simp [show s.swapped = false from hn])
    case nodup =>
      exact hnd
    case late =>
      grind
    case ret =>
      grind

end Verif.Cancel
