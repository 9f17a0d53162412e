import Verif.Spec.Openable
import Verif.Proofs.LoopsNet
import Verif.Proofs.Start

/-!
# Opening what the first party reads
-/

namespace DPPIR.Main
open DPPIR.Config DPPIR.Protocol DPPIR.Onion DPPIR.Incremental DPPIR.Noise

variable {box : SealedBox}

theorem zipWith_prefix {α β γ : Type} (f : α → β → γ) {l l' : List α} {m m' : List β} (h : l <+: l') (h' : m <+: m') :
    List.zipWith f l m <+: List.zipWith f l' m' := by
  induction l generalizing l' m m' with
  | nil => simp
  | cons a l ih =>
    obtain ⟨t, rfl⟩ := h
    cases m with
    | nil => simp
    | cons b m =>
      obtain ⟨u, rfl⟩ := h'
      simpa using ih (List.prefix_append l t) (List.prefix_append m u)

theorem foldl_secrets (tag : BitVec 64) (shares : List Share) (pres : List Preshare) (h : shares.length = pres.length) (t : BitVec 32) :
    (List.zipWith (fun s p => (⟨tag, tag, s, p⟩ : OfflineSecret)) shares pres).foldl (fun tally s => incrementalReconstruct tally s.share) t =
      Spec.applyAll shares t := by
  unfold Spec.applyAll
  induction shares generalizing pres t with
  | nil => rfl
  | cons s shares ih =>
    cases pres with
    | nil => simp at h
    | cons p pres => exact ih pres (by simpa using h) _

theorem reveal_ticket {w : World box} {c : Config} {d : Dist} (hu : Usable w c d) {rows : Nat} {t : Ticket box} {q : QTicket}
    (ht : t.Good c.partyCount.toNat) (hq : q.Good rows c.partyCount.toNat) (hs : q.shares = t.shares) :
    w.reveal c (t.cipher (w.pkeys c) 0) q.query = some q.key := by
  have hk : (w.keyring c).map Prod.fst = w.pkeys c := by
    unfold World.keyring World.pkeys
    rw [List.map_map]
    rfl
  have hl : (w.keyring c).length = c.partyCount.toNat := by
    unfold World.keyring
    rw [List.length_map, hu.parties.2]
  have hpair : ∀ e ∈ w.keyring c, box.IsPair e.1 e.2 := by
    intro e he
    obtain ⟨p, hp, rfl⟩ := List.mem_map.1 he
    exact hu.pairs p hp
  have hgood : Spec.GoodKeys box (w.pkeys c) ((w.keyring c).map Prod.snd) := by
    rw [← hk]
    refine ⟨by simp, fun k h h' => ?_⟩
    rw [List.getElem_map, List.getElem_map]
    exact hpair _ (List.getElem_mem _)
  have hlen : (w.pkeys c).length = c.partyCount.toNat := by rw [← hk, List.length_map, hl]
  have h8 : c.partyCount.toNat ≤ 255 := by have := c.partyCount.isLt; omega
  have hlay := (Ticket.encrypt_eq hgood (by rw [hlen]; exact h8) ht (k := 0) (by rw [hlen]; omega) (fun _ => 0) (fun _ => 0)).2
  rw [List.drop_zero, ← hk] at hlay
  have := peelAll_ok box t.coins 0 (w.keyring c) t.secrets _ [] hpair (by rw [ht.secrets, hl]) hlay
  rw [List.append_nil, hk] at this
  unfold World.reveal
  rw [this]
  show some (List.foldl _ q.tally t.secrets).toNat = _
  unfold Ticket.secrets
  rw [foldl_secrets _ _ _ (by rw [ht.shares, ht.pres]), ← hs, hq.tally]

theorem reveal_chain {w : World box} {c : Config} {d : Dist} (hu : Usable w c d) (q : Nat) (hv : (chainOf w c d q).Valid) :
    List.zipWith (w.reveal c) (((chainOf w c d q).tickets 0).map (fun t => t.cipher (w.pkeys c) 0)) (((chainOf w c d q).qs true 0).map QTicket.query) =
      (List.range q).map (fun j => some ((w.clientRand 0).row j % c.dbSize.toNat)) := by
  rw [Chain.tickets, Chain.qs, List.map_map, List.map_map, List.zipWith_map, List.zipWith_self]
  refine List.map_congr_left fun j _ => ?_
  refine (reveal_ticket hu (SecretRand.ticket_good _ _ _) (Chain.clientQs_good hv true j).1 rfl).trans ?_
  rw [← chain_wanted hu q j]
  rfl

theorem reveal_grid {w : World box} {c : Config} {d : Dist} (hu : Usable w c d) (q : Nat → Nat) (hv : (gridOf w c d q).Valid) (s : Nat) :
    List.zipWith (w.reveal c) (((gridOf w c d q).tickets 0 s).map (fun t => t.cipher (w.pkeys c) 0)) (((gridOf w c d q).qs true 0 s).map QTicket.query) =
      (List.range (q s)).map (fun j => some ((w.clientRand s).row j % c.dbSize.toNat)) := by
  rw [Grid.tickets, Grid.qs, List.map_map, List.map_map, List.zipWith_map, List.zipWith_self]
  refine List.map_congr_left fun j _ => ?_
  refine (reveal_ticket hu (SecretRand.ticket_good _ _ _) (Grid.clientQs_good hv true s j).1 rfl).trans ?_
  rw [← grid_wanted hu q s j]
  rfl

end DPPIR.Main

namespace DPPIR.Protocol.Grid
open DPPIR.Onion
open Chain (flatMap_nil' flatMap_single)

theorem ciphersRead_first {box : SealedBox} (g : Grid box) (s : Nat) (h : 1 < g.parties) :
    ciphersRead (g.obsAll true true 1 s) = (g.tickets 0 s).map (fun t => t.cipher g.pkeys 0) := by
  rw [party_obs g true true s 0 h, ciphersRead]
  parts

end DPPIR.Protocol.Grid
