import Verif.Spec.Delay
import Verif.Lemmas.SMap
import Verif.Props.StableSys
/-! What depends on the time of a transaction (helpers only). -/
namespace Phoenix.World
open Phoenix Phoenix.World.Spec

variable {h : Host} {w w' : World} {c : Ctx} {T t : Nat}

/-! ### Nothing is dated in the future -/

theorem stable_swap_amp {P s o : Addr} {x r : Int} {mo ms mf : Option Int} {dl : Option Nat} {p q : Stable.State} {L L' : Ledger}
    (e : Stable.swap P c p L s o x mo ms dl mf = .ok (q, L', r)) : q.amp = p.amp := by
  unfold Stable.swap Stable.doSwap at e
  simp only [bind_ok, ok_inj, Prod.mk.injEq, Prod.exists] at e
  obtain ⟨_, h1, _, h2, _, h3, l, hl, a, b, hs, k, hk, _, hm, g, hg, _, hms, L1, t1, rc, hrc, L2, t2, L3, t3, q', hq, rfl, rfl,
    rfl⟩ := e
  unfold Stable.swapReserves at hq
  split at hq <;> simp only [bind_ok, ok_inj] at hq <;> obtain ⟨_, _, _, _, _, _, rfl⟩ := hq <;> rfl

theorem stable_step_amp {P : Addr} {k : Stable.Call} {p q : Stable.State} {L : Ledger} {s' : Stable.Sys} (hk : ∀ i, k ≠ .init i)
    (e : Stable.step P ⟨some p, L⟩ (.pool c k) = .ok s') (hq : s'.pool = some q) : q.amp = p.amp := by
  cases k with
  | init i => exact absurd rfl (hk i)
  | provide s a b cu dl ms =>
    simp only [Stable.step, Stable.loaded, bind_ok, ok_inj, Prod.exists] at e
    obtain ⟨_, rfl, q', L', e, rfl⟩ := e
    cases hq
    unfold Stable.provide Stable.mintShares at e
    simp only [bind_ok, ok_inj, Prod.mk.injEq, Prod.exists] at e
    obtain ⟨_, h1, _, h2, _, h3, _, h4, _, h5, amp, h6, L1, h7, L2, h8, ra, h9, rb, h10, na, h11, nb, h12, ua, h13, ub, h14, d, h15,
      sh, h16, _, h17, s', h18, p1, L3, ⟨L4, h19, tt, h20, rfl, rfl⟩, rfl, rfl⟩ := e
    rfl
  | swap s o x mo ms dl mf =>
    simp only [Stable.step, Stable.loaded, bind_ok, ok_inj, Prod.exists] at e
    obtain ⟨_, rfl, q', L', r, e, rfl⟩ := e
    cases hq
    exact stable_swap_amp e
  | withdraw s x mA mB dl =>
    simp only [Stable.step, Stable.loaded, bind_ok, ok_inj, Prod.exists] at e
    obtain ⟨_, rfl, q', L', a, b, e, rfl⟩ := e
    cases hq
    unfold Stable.withdraw Stable.burnShares at e
    simp only [bind_ok, ok_inj, Prod.mk.injEq, Prod.exists] at e
    obtain ⟨_, h1, _, h2, _, h3, _, h4, _, h5, L1, h6, _, h7, r, h8, a, h9, b, h10, _, h11, p1, L2, ⟨_, h12, _, h12', rfl, rfl⟩, L3,
      h13, L4, h14, u, h15, v, h16, rfl, rfl, rfl, rfl⟩ := e
    rfl
  | updateConfig s u =>
    simp only [Stable.step, Stable.loaded, bind_ok, ok_inj] at e
    obtain ⟨_, rfl, q', e, rfl⟩ := e
    cases hq
    unfold Stable.updateConfig at e
    simp only [bind_ok, ok_inj] at e
    obtain ⟨_, h1, _, h2, _, h3, _, h4, rfl⟩ := e
    rfl

theorem Spec.Before.put {P : Addr} {p q : Stable.State} (b : Before T w) (hp : w.stable P = some p) (ha : q.amp = p.amp)
    (hs : w'.stable = upd w.stable P (some q)) (hk : w'.stake = w.stake) : Before T w' := by
  refine ⟨fun R r hr => ?_, fun K => by rw [hk]; exact b.stake K⟩
  rw [hs] at hr
  by_cases e : R = P
  · subst e
    rw [upd_same] at hr
    cases hr
    rw [ha]
    exact b.stable _ _ hp
  · simp only [upd, e, if_false] at hr
    exact b.stable _ _ hr

theorem Spec.Before.congr (b : Before T w) (hs : w'.stable = w.stable) (hk : w'.stake = w.stake) : Before T w' :=
  ⟨by rw [hs]; exact b.stable, by rw [hk]; exact b.stake⟩

theorem poolSwap_before {P s o : Addr} {x r : Int} {mi sp mf : Option Int} {dl : Option Nat} (b : Before T w)
    (e : poolSwap w c P s o x mi sp dl mf = .ok (w', r)) : Before T w' := by
  unfold poolSwap at e
  split at e
  · simp only [bind_ok, ok_inj, Prod.exists, Prod.mk.injEq] at e
    obtain ⟨_, _, _, _, _, _, rfl, rfl⟩ := e
    exact b.congr rfl rfl
  · simp only [bind_ok, ok_inj, Prod.exists, Prod.mk.injEq] at e
    obtain ⟨p, hp, q, L, r', hq, rfl, rfl⟩ := e
    have hp : w.stable P = some p := by
      unfold Stable.loaded at hp
      split at hp
      · rename_i e; rw [ok_inj] at hp; rw [e, hp]
      · simp at hp
    exact b.put hp (stable_swap_amp hq) rfl rfl
  · simp at e

theorem hopLoop_before {F s : Addr} {sp mf : Option Int} {dl : Option Nat} : ∀ {ops : List Multihop.Op} {w w' : World} {x r : Int},
    Before T w → hopLoop w c F s sp dl mf ops x = .ok (w', r) → Before T w'
  | [], w, w', x, r, b, e => by
    simp only [hopLoop, ok_inj, Prod.mk.injEq] at e
    obtain ⟨rfl, rfl⟩ := e
    exact b
  | op :: ops, w, w', x, r, b, e => by
    simp only [hopLoop, bind_ok, Prod.exists] at e
    obtain ⟨Q, hQ, w1, r1, h1, h2⟩ := e
    exact hopLoop_before (poolSwap_before b h1) h2

theorem init_before {s s' : Stake.State} {a lp m o : Addr} {mb mr : Int} {mc : Nat} (b : StakeBefore T s)
    (e : Stake.init s a lp mb mr m o mc = .ok s') : StakeBefore T s' := by
  unfold Stake.init at e
  simp only [bind_ok, ok_inj] at e
  obtain ⟨_, _, _, _, _, _, _, _, rfl⟩ := e
  exact ⟨b.stakes, b.last, fun d hd => by simp [SMap.keys] at hd, b.rewards⟩

theorem removeStake_mem {x : Int} {ts : Nat} : ∀ {l l' : List Stake.Entry}, Stake.removeStake x ts l = .ok l' → ∀ e ∈ l', e ∈ l
  | [], _, e => by simp [Stake.removeStake] at e
  | y :: l, l', e => by
    unfold Stake.removeStake at e
    split at e
    · rw [ok_inj] at e; subst e
      exact fun z hz => List.mem_cons_of_mem _ hz
    · simp only [bind_ok, ok_inj] at e
      obtain ⟨m, hm, rfl⟩ := e
      intro z hz
      rcases List.mem_cons.mp hz with rfl | hz
      · simp
      · exact List.mem_cons_of_mem _ (removeStake_mem hm z hz)

theorem stake_before {K : Addr} {k : Stake.Call} {s : Stake.State} {L : Ledger} {s' : Stake.Sys} (b : StakeBefore T s)
    (hT : c.now ≤ T) (e : Stake.step K ⟨s, L⟩ (.stake c k) = .ok s') : StakeBefore T s'.st := by
  have info : ∀ {a : Addr} {i : Stake.Info} {f : Addr → Stake.Info}, f = upd s.info a i → (∀ x ∈ i.stakes, x.ts ≤ T) → i.last ≤ T →
      (∀ a, ∀ x ∈ (f a).stakes, x.ts ≤ T) ∧ ∀ a, (f a).last ≤ T := by
    rintro a i f rfl h1 h2
    refine ⟨fun z => ?_, fun z => ?_⟩ <;> by_cases hz : z = a
    · subst hz; rw [upd_same]; exact h1
    · simp only [upd, hz, if_false]; exact b.stakes z
    · subst hz; rw [upd_same]; exact h2
    · simp only [upd, hz, if_false]; exact b.last z
  have keys : ∀ {m : SMap} {v : Nat}, (∀ d ∈ m.keys, d ≤ T) → ∀ d ∈ (m.set c.now v).keys, d ≤ T := by
    intro m v hm d hd
    rcases SMap.mem_keys_set.mp hd with rfl | hd
    · exact hT
    · exact hm d hd
  cases k with
  | init a lp mb mr m o mc =>
    simp only [Stake.step, bind_ok, ok_inj] at e
    obtain ⟨v, hv, rfl⟩ := e
    exact init_before b hv
  | bond a x =>
    simp only [Stake.step, Stake.bond, bind_ok, ok_inj, Prod.exists, Prod.mk.injEq] at e
    obtain ⟨_, _, ⟨_, _, cfg, _, _, _, L', _, tt, _, tot, _, rfl, rfl⟩, rfl⟩ := e
    obtain ⟨i1, i2⟩ := info (a := a) (i := ⟨(s.info a).stakes ++ [⟨x, c.now⟩], (s.info a).last, tt⟩) rfl (by
      intro z hz
      rcases List.mem_append.mp hz with hz | hz
      · exact b.stakes a z hz
      · rw [List.mem_singleton.mp hz]; exact hT) (b.last a)
    exact ⟨i1, i2, b.hist, b.rewards⟩
  | unbond a x ts =>
    simp only [Stake.step, Stake.unbond, bind_ok, ok_inj, Prod.exists, Prod.mk.injEq] at e
    obtain ⟨_, _, ⟨_, _, cfg, _, l, hl, tt, _, L', _, tot, _, rfl, rfl⟩, rfl⟩ := e
    obtain ⟨i1, i2⟩ := info (a := a) (i := ⟨l, (s.info a).last, tt⟩) rfl
      (fun z hz => b.stakes a z (removeStake_mem hl z hz)) (b.last a)
    exact ⟨i1, i2, b.hist, b.rewards⟩
  | createFlow a asset =>
    simp only [Stake.step, Stake.createFlow, bind_ok, ok_inj] at e
    obtain ⟨_, ⟨_, _, cfg, _, _, _, _, _, rfl⟩, rfl⟩ := e
    refine ⟨b.stakes, b.last, b.hist, fun u m hm => ?_⟩
    by_cases hu : u = asset
    · subst hu
      simp only [upd_same, Option.some.injEq] at hm
      subst hm
      simp [SMap.keys]
    · simp only [upd, hu, if_false] at hm
      exact b.rewards u m hm
  | distribute a x tok =>
    simp only [Stake.step, Stake.distribute, bind_ok, ok_inj, Prod.exists, Prod.mk.injEq] at e
    obtain ⟨_, _, ⟨_, _, cfg, _, _, _, _, _, m, hm, L', _, rfl, rfl⟩, rfl⟩ := e
    have hm' : s.rewards tok = some m := by
      unfold Stake.rewardHistory at hm
      split at hm
      · rename_i e; rw [ok_inj] at hm; rw [e, hm]
      · simp at hm
    refine ⟨b.stakes, b.last, keys b.hist, fun u m' hu => ?_⟩
    by_cases ht : u = tok
    · subst ht
      simp only [upd_same, Option.some.injEq] at hu
      subst hu
      exact keys (b.rewards _ _ hm')
    · simp only [upd, ht, if_false] at hu
      exact b.rewards u m' hu
  | withdraw a =>
    simp only [Stake.step, Stake.withdraw, bind_ok, ok_inj, Prod.exists, Prod.mk.injEq] at e
    obtain ⟨_, _, ⟨L', _, rfl, rfl⟩, rfl⟩ := e
    obtain ⟨i1, i2⟩ := info (a := a) (i := { s.info a with last := c.now }) rfl (b.stakes a) hT
    exact ⟨i1, i2, b.hist, b.rewards⟩

theorem deploy_same {a : Addr} {k : Code} (e : deploy w a k = .ok w') :
    w'.stable = w.stable ∧ w'.stake = w.stake ∧ w'.xyk = w.xyk ∧ w'.hop = w.hop := by
  unfold deploy at e
  simp only [bind_ok, ok_inj] at e
  obtain ⟨_, _, rfl⟩ := e
  exact ⟨rfl, rfl, rfl, rfl⟩

theorem Spec.Before.putStake {K : Addr} {s : Stake.State} (b : Before T w) (hs : StakeBefore T s) {f : Addr → Stake.State}
    (hf : f = upd w.stake K s) : ∀ K, StakeBefore T (f K) := by
  intro J
  rw [hf]
  by_cases e : J = K
  · subst e; rw [upd_same]; exact hs
  · simp only [upd, e, if_false]; exact b.stake J

theorem initXyk_before {P owner : Addr} {i : Info} {dec : Nat} {sl mf : Int} (b : Before T w)
    (e : initXyk h w P i owner dec sl mf = .ok w') : Before T w' := by
  simp only [initXyk, bind_ok, ok_inj, Prod.exists] at e
  obtain ⟨p, L, _, w1, h1, w2, h2, st, h3, rfl⟩ := e
  obtain ⟨d1, d2, -⟩ := deploy_same h1
  obtain ⟨d3, d4, -⟩ := deploy_same h2
  have b2 : Before T w2 := b.congr (d3.trans d1) (d4.trans d2)
  exact ⟨b2.stable, b2.putStake (init_before (b2.stake _) h3) rfl⟩

theorem initStable_before {P owner : Addr} {i : Info} {amp : Nat} {mf : Int} (b : Before T w) (hT : c.now ≤ T)
    (e : initStable h w c P i owner amp mf = .ok w') : Before T w' := by
  simp only [initStable, bind_ok, ok_inj, Prod.exists] at e
  obtain ⟨_, _, _, _, p, L, hp, w1, h1, w2, h2, st, h3, rfl⟩ := e
  obtain ⟨d1, d2, -⟩ := deploy_same h1
  obtain ⟨d3, d4, -⟩ := deploy_same h2
  have b2 : Before T w2 := b.congr (d3.trans d1) (d4.trans d2)
  refine ⟨fun R r hr => ?_, b2.putStake (init_before (b2.stake _) h3) rfl⟩
  simp only [upd] at hr
  split at hr
  · cases hr
    unfold Stable.init at hp
    simp only [bind_ok, ok_inj, Prod.mk.injEq] at hp
    obtain ⟨_, _, _, _, _, _, _, _, _, _, _, _, _, _, _, _, _, _, _, _, _, _, _, _, _, _, _, _, rfl, -⟩ := hp
    exact ⟨hT, hT⟩
  · exact b2.stable R r hr

theorem step_before {k : Call} (b : Before T w) (hT : c.now ≤ T) (e : step h w c k = .ok w') : Before T w' := by
  cases k with
  | token tok op =>
    simp only [step, bind_ok, ok_inj] at e
    obtain ⟨_, _, L, _, rfl⟩ := e
    exact b.congr rfl rfl
  | xykInit P i owner dec sl mf =>
    simp only [step, bind_ok] at e
    obtain ⟨_, _, e⟩ := e
    exact initXyk_before b e
  | xyk P k =>
    cases k <;> simp only [step, bind_ok, ok_inj, reduceCtorEq] at e
    all_goals
      obtain ⟨_, _, s, _, rfl⟩ := e
      exact b.congr rfl rfl
  | stableInit P i owner amp mf =>
    simp only [step, bind_ok] at e
    obtain ⟨_, _, e⟩ := e
    exact initStable_before b hT e
  | stable P k =>
    by_cases hk : ∃ i, k = .init i
    · obtain ⟨i, rfl⟩ := hk; simp [step] at e
    have hk : ∀ i, k ≠ .init i := fun i h => hk ⟨i, h⟩
    have e' : ∃ s, Stable.step P ⟨w.stable P, w.led⟩ (.pool c k) = .ok s ∧
        w' = { w with stable := upd w.stable P s.pool, led := s.led } := by
      cases k with
      | init i => exact absurd rfl (hk i)
      | _ =>
        simp only [step, bind_ok, ok_inj] at e
        obtain ⟨_, _, s, hs, rfl⟩ := e
        exact ⟨s, hs, rfl⟩
    obtain ⟨s, hs, rfl⟩ := e'
    cases hp : w.stable P with
    | none =>
      rw [hp] at hs
      cases k with
      | init i => exact absurd rfl (hk i)
      | _ => simp [Stable.step, Stable.loaded, bind_ok] at hs
    | some p =>
      rw [hp] at hs
      refine ⟨fun R r hr => ?_, b.stake⟩
      simp only [upd] at hr
      split at hr
      · rw [stable_step_amp hk hs hr]; exact b.stable _ _ hp
      · exact b.stable _ _ hr
  | stake K k =>
    simp only [step, bind_ok, ok_inj] at e
    obtain ⟨_, _, s, hs, rfl⟩ := e
    exact ⟨b.stable, b.putStake (stake_before (b.stake K) hT hs) rfl⟩
  | vest V k =>
    cases k <;> simp only [step, bind_ok, ok_inj] at e
    case mint =>
      obtain ⟨_, _, v, _, _, _, s, _, rfl⟩ := e
      exact b.congr rfl rfl
    all_goals
      obtain ⟨_, _, s, _, rfl⟩ := e
      exact b.congr rfl rfl
  | facInit F admin lp stb stk tok wl dec =>
    simp only [step, facInit, bind_ok, ok_inj] at e
    obtain ⟨_, _, _, _, _, _, w1, h1, m, _, rfl⟩ := e
    obtain ⟨d1, d2, -⟩ := deploy_same h1
    exact b.congr d1 d2
  | create F sender i k amp sl mf =>
    simp only [step, create, bind_ok, ok_inj, Prod.exists, Prod.mk.injEq] at e
    obtain ⟨_, _, w2, P, ⟨_, _, _, _, f, _, _, _, _, _, w1, h1, _, _, _, _, _, _, _, _, _, _, _, _, w3, h2, rfl, rfl⟩, rfl⟩ := e
    obtain ⟨d1, d2, -⟩ := deploy_same h1
    have b1 : Before T w1 := b.congr d1 d2
    have b3 : Before T w3 := by
      cases k with
      | xyk => exact initXyk_before b1 h2
      | stable => exact initStable_before (c := c.as F) b1 hT h2
    exact b3.congr rfl rfl
  | whitelist F sender add rem =>
    simp only [step, bind_ok, ok_inj] at e
    obtain ⟨_, _, f, _, f', _, rfl⟩ := e
    exact b.congr rfl rfl
  | hashes F lp stk tok =>
    simp only [step, bind_ok, ok_inj] at e
    obtain ⟨_, _, f, _, f', _, rfl⟩ := e
    exact b.congr rfl rfl
  | facUpdate F stb =>
    simp only [step, bind_ok, ok_inj] at e
    obtain ⟨_, _, f, _, f', _, rfl⟩ := e
    exact b.congr rfl rfl
  | hopInit H admin F =>
    simp only [step, bind_ok, ok_inj] at e
    obtain ⟨_, _, m, _, rfl⟩ := e
    exact b.congr rfl rfl
  | hopSwap H recipient ops sp amount dl mf =>
    simp only [step, hopSwap, bind_ok, ok_inj, Prod.exists] at e
    obtain ⟨_, h1, w1, r, ⟨_, _, _, _, _, _, m, hm, h2⟩, rfl⟩ := e
    exact hopLoop_before b h2
  | trdInit T admin a b' o =>
    simp only [step, bind_ok, ok_inj] at e
    obtain ⟨_, _, m, _, rfl⟩ := e
    exact b.congr rfl rfl
  | trade T sender token pool amount sp dl mi mf =>
    simp only [step, trade, bind_ok, ok_inj, Prod.exists] at e
    obtain ⟨_, h1, w1, r, ⟨_, _, t, ht, _, _, _, _, _, _, h2⟩, rfl⟩ := e
    exact poolSwap_before b h2
  | trdTransfer T sender recipient amount token =>
    simp only [step, bind_ok, ok_inj] at e
    obtain ⟨_, _, t, _, L, _, rfl⟩ := e
    exact b.congr rfl rfl
  | rewards R k =>
    simp only [step, bind_ok, ok_inj] at e
    obtain ⟨_, _, s, _, rfl⟩ := e
    exact b.congr rfl rfl

theorem run_before {ts : List Tx} (hT : ∀ y ∈ ts, y.ctx.now ≤ T) (b : Before T w) : Before T (run h w ts) := by
  induction ts generalizing w with
  | nil => exact b
  | cons y ts ih =>
    refine ih (fun z hz => hT z (by simp [hz])) ?_
    unfold exec
    split
    · rename_i e; exact step_before b (hT y (by simp)) e
    · exact b

theorem genesis_before {acct : Accounts} (g : Genesis acct w) : Before T w := by
  refine ⟨fun P p hp => by rw [g.stable] at hp; simp at hp, fun K => ?_⟩
  rw [g.stake]
  exact ⟨by simp [Stake.fresh, Stake.noInfo], by simp [Stake.fresh, Stake.noInfo], by simp [Stake.fresh, SMap.keys], by simp [Stake.fresh]⟩

/-! ### The same call later -/

theorem inTime_le {k : Call} {t u : Nat} (hu : t ≤ u) (h : InTime u k) : InTime t k := fun d hd => le_trans hu (h d hd)

theorem pool_deadline {c : Ctx} {dl : Option Nat} (h1 : ∀ d, dl = some d → c.now ≤ d) (h2 : ∀ d, dl = some d → t ≤ d) :
    Pool.checkDeadline (on c t) dl = Pool.checkDeadline c dl := by
  cases dl with
  | none => rfl
  | some d =>
    simp only [Pool.checkDeadline, whenSome, req]
    rw [if_pos (show (on c t).now ≤ d from h2 d rfl), if_pos (h1 d rfl)]

theorem stable_deadline {c : Ctx} {dl : Option Nat} (h1 : ∀ d, dl = some d → c.now ≤ d) (h2 : ∀ d, dl = some d → t ≤ d) :
    Stable.checkDeadline (on c t) dl = Stable.checkDeadline c dl := by
  cases dl with
  | none => rfl
  | some d =>
    simp only [Stable.checkDeadline, whenSome, req]
    rw [if_pos (show (on c t).now ≤ d from h2 d rfl), if_pos (h1 d rfl)]

theorem ledger_on (L : Ledger) (tok : Addr) (op : TokenOp) : L.call (on c t) tok op = L.call c tok op := by
  cases op <;> rfl

theorem pool_swap_on {P s o : Addr} {x : Int} {mo ms mf : Option Int} {dl : Option Nat} {p : Pool.State} {L : Ledger}
    (h1 : ∀ d, dl = some d → c.now ≤ d) (h2 : ∀ d, dl = some d → t ≤ d) :
    Pool.swap P (on c t) p L s o x mo ms dl mf = Pool.swap P c p L s o x mo ms dl mf := by
  unfold Pool.swap Pool.doSwap
  rw [pool_deadline h1 h2]
  rfl

theorem amp_on {a : Stable.AmpParams} {u : Nat} (h1 : a.nextTime ≤ u) (h2 : a.nextTime ≤ t) :
    Stable.currentAmp t a = Stable.currentAmp u a := by
  unfold Stable.currentAmp
  rw [if_neg (by omega), if_neg (by omega)]

theorem quote_on {p : Stable.State} {s b : Stable.Side} {x : Int} {u : Nat} (h1 : p.amp.nextTime ≤ u) (h2 : p.amp.nextTime ≤ t) :
    Stable.quote t p s b x = Stable.quote u p s b x := by
  simp only [Stable.quote, Stable.computeSwap, amp_on h1 h2]

theorem offer_on {p : Stable.State} {a b d e f : Nat} {x : Int} {u : Nat} (h1 : p.amp.nextTime ≤ u) (h2 : p.amp.nextTime ≤ t) :
    Stable.computeOfferAmount t p a b d e f x = Stable.computeOfferAmount u p a b d e f x := by
  simp only [Stable.computeOfferAmount, amp_on h1 h2]

theorem stable_swap_on {P s o : Addr} {x : Int} {mo ms mf : Option Int} {dl : Option Nat} {p : Stable.State} {L : Ledger}
    (h1 : ∀ d, dl = some d → c.now ≤ d) (h2 : ∀ d, dl = some d → t ≤ d) (h3 : p.amp.nextTime ≤ c.now) (h4 : p.amp.nextTime ≤ t) :
    Stable.swap P (on c t) p L s o x mo ms dl mf = Stable.swap P c p L s o x mo ms dl mf := by
  unfold Stable.swap Stable.doSwap
  rw [stable_deadline h1 h2]
  simp only [show (on c t).now = t from rfl, quote_on h3 h4]
  rfl

theorem stable_provide_on {P s : Addr} {x y : Int} {cu : Option Int} {dl ms : Option Nat} {p : Stable.State} {L : Ledger}
    (h1 : ∀ d, dl = some d → c.now ≤ d) (h2 : ∀ d, dl = some d → t ≤ d) (h3 : p.amp.nextTime ≤ c.now) (h4 : p.amp.nextTime ≤ t) :
    Stable.provide P (on c t) p L s x y cu dl ms = Stable.provide P c p L s x y cu dl ms := by
  unfold Stable.provide
  rw [stable_deadline h1 h2, show (on c t).now = t from rfl, amp_on h3 h4]
  rfl

theorem poolSwap_on {P s o : Addr} {x : Int} {mi sp mf : Option Int} {dl : Option Nat} (b : Before T w) (hT : T ≤ c.now) (ht : T ≤ t)
    (h1 : ∀ d, dl = some d → c.now ≤ d) (h2 : ∀ d, dl = some d → t ≤ d) :
    poolSwap w (on c t) P s o x mi sp dl mf = poolSwap w c P s o x mi sp dl mf := by
  unfold poolSwap
  simp only [pool_swap_on h1 h2]
  split
  · rfl
  · cases hp : w.stable P with
    | none => rfl
    | some p =>
      have := (b.stable P p hp).2
      show (Stable.swap P (on c t) p w.led s o x mi sp dl mf >>= _) = (Stable.swap P c p w.led s o x mi sp dl mf >>= _)
      rw [stable_swap_on h1 h2 (by omega) (by omega)]
  · rfl

theorem hopLoop_on {F s : Addr} {sp mf : Option Int} {dl : Option Nat} (hT : T ≤ c.now) (ht : T ≤ t)
    (h1 : ∀ d, dl = some d → c.now ≤ d) (h2 : ∀ d, dl = some d → t ≤ d) : ∀ {ops : List Multihop.Op} {w : World} {x : Int},
    Before T w → hopLoop w (on c t) F s sp dl mf ops x = hopLoop w c F s sp dl mf ops x
  | [], w, x, b => rfl
  | op :: ops, w, x, b => by
    unfold hopLoop
    cases hQ : findPool w F op.offer op.ask with
    | error e => rfl
    | ok Q =>
      simp only [bind, Except.bind, poolSwap_on b hT ht h1 h2]
      cases e : poolSwap w c Q s op.offer x op.min sp dl mf with
      | error e => rfl
      | ok q =>
        obtain ⟨w1, r⟩ := q
        exact hopLoop_on hT ht h1 h2 (poolSwap_before b e)

theorem step_on {k : Call} (b : Before T w) (hT : T ≤ c.now) (ht : T ≤ t) (hk : ¬ NotesTime k) (h1 : InTime c.now k) (h2 : InTime t k) :
    step h w (on c t) k = step h w c k := by
  cases k with
  | token tok op => simp only [step, ledger_on]
  | xykInit P i owner dec sl mf => rfl
  | xyk P k =>
    cases k with
    | init i => rfl
    | provide s dA mA dB mB cu dl =>
      simp only [step, Pool.step, Pool.provide, pool_deadline (dl := dl) h1 h2]; rfl
    | swap s o x mo ms dl mf =>
      simp only [step, Pool.step, pool_swap_on (dl := dl) h1 h2]
    | withdraw s x mA mB dl =>
      simp only [step, Pool.step, Pool.withdraw, pool_deadline (dl := dl) h1 h2]; rfl
    | _ => rfl
  | stableInit P i owner amp mf => exact absurd trivial hk
  | stable P k =>
    cases k with
    | init i => rfl
    | provide s x y cu dl ms =>
      simp only [step, Stable.step]
      cases hp : w.stable P with
      | none => rfl
      | some p =>
        have := (b.stable P p hp).2
        simp only [Stable.loaded, bind, Except.bind, stable_provide_on (dl := dl) h1 h2 (show p.amp.nextTime ≤ c.now by omega) (show p.amp.nextTime ≤ t by omega)]
    | swap s o x mo ms dl mf =>
      simp only [step, Stable.step]
      cases hp : w.stable P with
      | none => rfl
      | some p =>
        have := (b.stable P p hp).2
        simp only [Stable.loaded, bind, Except.bind, stable_swap_on (dl := dl) h1 h2 (show p.amp.nextTime ≤ c.now by omega) (show p.amp.nextTime ≤ t by omega)]
    | withdraw s x mA mB dl =>
      simp only [step, Stable.step, Stable.withdraw, stable_deadline (dl := dl) h1 h2]; rfl
    | updateConfig s u => rfl
  | stake K k =>
    cases k with
    | bond => exact absurd trivial hk
    | distribute => exact absurd trivial hk
    | withdraw => exact absurd trivial hk
    | _ => rfl
  | vest V k =>
    cases k with
    | claim => exact absurd trivial hk
    | _ => rfl
  | facInit F admin lp stb stk tok wl dec => rfl
  | create F sender i k amp sl mf =>
    cases k with
    | stable => exact absurd rfl hk
    | xyk => rfl
  | hopSwap H recipient ops sp amount dl mf =>
    simp only [step, hopSwap]
    have := fun (m : Addr) => hopLoop_on (c := c.as H) (F := m) (s := recipient) (sp := sp) (mf := mf) hT ht (dl := dl) h1 h2 (ops := ops) (x := amount) b
    simp only [show (on c t).as H = on (c.as H) t from rfl, this]
    rfl
  | trade T sender token pool amount sp dl mi mf =>
    simp only [step, trade, show (on c t).as T = on (c.as T) t from rfl]
    simp only [poolSwap_on (c := c.as T) b hT ht (dl := dl) h1 h2]
    rfl
  | rewards R k =>
    cases k with
    | init a st tok mc mr mb => rfl
    | addUser u i => rfl
    | calcBond u i => rfl
    | _ => exact absurd trivial hk
  | _ => rfl

end Phoenix.World
