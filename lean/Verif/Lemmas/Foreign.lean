import Verif.Spec.Foreign
import Verif.Lemmas.Pool
import Verif.Lemmas.Stable
import Verif.Lemmas.StableSys
import Verif.Lemmas.VestingSys
import Verif.Lemmas.StakeSys
/-! Contracts over tokens of unknown code (helpers only). -/
namespace Phoenix
open Phoenix.Spec

/-! With the repository's token behind every address the functions are the ones of the
main model. -/

namespace Pool
theorem swapX_ledger : @swapX _ ledgerTokens = @swap := rfl
theorem provideX_ledger : @provideX _ ledgerTokens = @provide := rfl
theorem withdrawX_ledger : @withdrawX _ ledgerTokens = @withdraw := rfl
end Pool

namespace Stable
theorem swapX_ledger : @swapX _ ledgerTokens = @swap := rfl
theorem provideX_ledger : @provideX _ ledgerTokens = @provide := rfl
theorem withdrawX_ledger : @withdrawX _ ledgerTokens = @withdraw := rfl
end Stable

namespace Vesting
theorem createX_ledger : @createX _ ledgerTokens = @create := rfl
theorem claimX_ledger : @claimX _ ledgerTokens = @claim := rfl
end Vesting

namespace Stake
theorem payLoopX_ledger (me : Addr) (c : Ctx) (s : State) (a : Addr) (l : List Addr) (L : Ledger) :
    payLoopX ledgerTokens me c s a l L = payLoop me c s a l L := by
  induction l generalizing L with
  | nil => rfl
  | cons b l ih =>
    unfold payLoopX payLoop
    simp only [ih]; rfl
theorem bondX_ledger : @bondX _ ledgerTokens = @bond := rfl
theorem unbondX_ledger : @unbondX _ ledgerTokens = @unbond := rfl
theorem distributeX_ledger : @distributeX _ ledgerTokens = @distribute := rfl
theorem withdrawX_ledger : @withdrawX _ ledgerTokens = @withdraw := by
  funext me c s L a
  unfold withdrawX withdraw
  rw [payLoopX_ledger]
end Stake

theorem ledger_fair (me : Addr) : Fair ledgerTokens me where
  transfer L c t src dst x L' h u := by
    obtain ⟨-, h0, -, h1, -⟩ := Ledger.transfer_inv h
    show L.bal u me - _ ≤ L'.bal u me
    rw [h1 u me]
    simp only [Flow.delta, List.map_cons, List.map_nil, List.sum_cons, List.sum_nil, add_zero]
    by_cases e1 : t = u <;> by_cases e2 : src = me <;> by_cases e3 : dst = me <;> simp [e1, e2, e3, eq_comm] <;> omega
  mint L c t a x L' h u hu := by
    obtain ⟨-, -, h1, -⟩ := Ledger.mint_inv h
    show L.bal u me ≤ L'.bal u me
    rw [h1 u me]; simp [Ne.symm hu]
  burn L c t a x L' h u hu := by
    obtain ⟨-, -, -, h1, -⟩ := Ledger.burn_inv h
    show L.bal u me ≤ L'.bal u me
    rw [h1 u me]; simp [Ne.symm hu]

theorem ledger_delivers (me t : Addr) : Delivers ledgerTokens me t := by
  intro L c src x L' hne h
  obtain ⟨-, h0, -, h1, -⟩ := Ledger.transfer_inv h
  show L.bal t me + x ≤ L'.bal t me
  rw [h1 t me]
  simp [Flow.delta, hne]

theorem taxTransfer_inv {bps : Addr → Int} {L L' : Ledger} {c : Ctx} {t src dst : Addr} {x : Int}
    (h : taxTransfer bps L c t src dst x = .ok L') :
    0 ≤ x ∧ ∀ u a, L'.bal u a = L.bal u a + (Flow.delta ⟨t, src, dst, x⟩ u a) -
      (if u = t ∧ a = dst then x * bps t / 10000 else 0) := by
  unfold taxTransfer at h
  simp only [bind_ok, ok_inj, Token.spend_ok] at h
  obtain ⟨L1, hL1, t2, ht, rfl⟩ := h
  obtain ⟨-, h0, -, h1, -⟩ := Ledger.transfer_inv hL1
  refine ⟨h0, fun u a => ?_⟩
  have h2 := h1 u a
  simp only [List.map_cons, List.map_nil, List.sum_cons, List.sum_nil, add_zero] at h2
  rw [← h2]
  obtain ⟨-, -, rfl⟩ := ht
  unfold Ledger.bal
  by_cases e : u = t
  · subst e
    rw [upd_same]
    by_cases e2 : a = dst
    · subst e2; simp [upd_same]
    · simp [e2, upd_ne]
  · rw [upd_ne _ _ e]; simp [e]

/-- a tax between nothing and everything makes a fair token -/
theorem tax_fair {bps : Addr → Int} (hb : ∀ t, 0 ≤ bps t ∧ bps t ≤ 10000) (me : Addr) : Fair (taxTokens bps) me where
  transfer L c t src dst x L' h u := by
    obtain ⟨h0, h1⟩ := taxTransfer_inv h
    show L.bal u me - _ ≤ L'.bal u me
    rw [h1 u me]
    have : x * bps t / 10000 ≤ x := by
      have h2 := (hb t).2
      have : x * bps t ≤ x * 10000 := by nlinarith
      omega
    have k : (u = t) = (t = u) := propext eq_comm
    have k' : (me = dst) = (dst = me) := propext eq_comm
    simp only [Flow.delta, k, k']
    by_cases e1 : t = u <;> by_cases e2 : src = me <;> by_cases e3 : dst = me <;>
      simp only [e1, e2, e3, true_and, and_true, false_and, and_false, if_true, if_false] <;>
      (try subst e1) <;> omega
  mint L c t a x L' h u hu := (ledger_fair me).mint L c t a x L' h u hu
  burn L c t a x L' h u hu := (ledger_fair me).burn L c t a x L' h u hu

theorem tax_delivers {bps : Addr → Int} {t : Addr} (hb : bps t = 0) (me : Addr) : Delivers (taxTokens bps) me t := by
  intro L c src x L' hne h
  obtain ⟨-, h1⟩ := taxTransfer_inv h
  have h2 := h1 t me
  show L.bal t me + x ≤ L'.bal t me
  rw [h2, hb]; simp [Flow.delta, hne]

end Phoenix
