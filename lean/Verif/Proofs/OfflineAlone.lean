import Verif.Proofs.StartCausal
import Verif.Spec.OfflineAlone

/-!
# The offline stage alone
-/

namespace DPPIR.Protocol
open DPPIR.Main DPPIR.Onion DPPIR.Spec

variable {box : SealedBox}

theorem Chain.obsOff_prepares (c : Chain box) (offline : Bool) (i : Nat) : ∀ o ∈ c.obsAll offline false i, o.prepares = true := by
  intro o ho
  unfold Chain.obsAll Chain.obsOff at ho
  simp only [Bool.false_eq_true, if_false, List.append_nil] at ho
  split_ifs at ho <;> simp only [List.mem_append, List.mem_flatMap, List.mem_map, List.mem_cons, List.not_mem_nil, or_false] at ho <;>
    grind [Obs.prepares]

theorem Grid.obsOff_prepares (g : Grid box) (offline : Bool) (i s : Nat) : ∀ o ∈ g.obsAll offline false i s, o.prepares = true := by
  intro o ho
  unfold Grid.obsAll Grid.obsOff at ho
  simp only [Bool.false_eq_true, if_false, List.append_nil] at ho
  split_ifs at ho <;> simp only [List.mem_append, List.mem_flatMap, List.mem_map, List.mem_cons, List.not_mem_nil, or_false] at ho <;>
    grind [Obs.prepares]

theorem Chain.countsSent_any (c : Chain box) (k : Nat) (hk : k < c.parties) :
    countsSent (c.obsAll true false k) = [BitVec.ofNat 32 (c.queries k)] := by
  cases k with
  | zero => exact Chain.countsSent_client c true false
  | succ k => exact Chain.countsSent_party c true false k hk

theorem Chain.ciphersSent_any (c : Chain box) (k : Nat) (hk : k < c.parties) :
    ciphersSent (c.obsAll true false k) = (c.tickets k).map (fun t => t.cipher c.pkeys k) := by
  cases k with
  | zero => exact Chain.ciphersSent_client c false
  | succ k => exact Chain.ciphersSent_party c false k hk

/-- Opening a cipher gives the secret of the party and the cipher for the next one. -/
theorem Ticket.open_cipher {pkeys : List box.PKey} {skeys : List box.SKey} (hgood : GoodKeys box pkeys skeys) (hp : pkeys.length ≤ 255)
    {k m : Nat} {t : Ticket box} (h : t.Good (m + 1)) (hk : k + (m + 1) = pkeys.length) {pk : box.PKey} {sk : box.SKey}
    (hpk : pkeys[k]? = some pk) (hsk : skeys[k]? = some sk) :
    box.openMsg pk sk (t.cipher pkeys k) = some (t.head.encode ++ t.next.cipher pkeys (k + 1)) := by
  have h2 := (Ticket.encrypt_eq hgood hp h hk (fun _ => 0) (fun _ => 0)).2
  have h6 := (Ticket.encrypt_eq hgood hp h.next (show k + 1 + m = _ by omega) (fun _ => 0) (fun _ => 0)).2
  have hkl : k < pkeys.length := by omega
  obtain ⟨hk1, rfl⟩ := List.getElem?_eq_some_iff.1 hpk
  obtain ⟨hk2, rfl⟩ := List.getElem?_eq_some_iff.1 hsk
  rw [h.secrets_cons, List.drop_eq_getElem_cons hkl, List.zip_cons_cons] at h2
  have : (t.next).coins = fun i => t.coins (i + 1) := rfl
  rw [this, layered_shift] at h6
  simp only [layered, Option.bind_eq_bind, Option.bind_eq_some_iff] at h2
  obtain ⟨inner, h3, h4⟩ := h2
  rw [h6] at h3
  obtain rfl := Option.some.inj h3
  obtain ⟨c', h7, -, h8⟩ := box.seal_open _ _ _ _ (hgood.2 k hk1 hk2)
  rw [h4] at h7
  obtain rfl := Option.some.inj h7
  exact h8

theorem forall2_tickets {pk : box.PKey} {sk : box.SKey} {T : List (Ticket box)} {c n : Ticket box → List Byte}
    (h : ∀ t ∈ T, box.openMsg pk sk (c t) = some (t.head.encode ++ n t)) :
    List.Forall₂ (fun cipher secret => ∃ plain, box.openMsg pk sk cipher = some plain ∧ secret = OfflineSecret.decode (plain.take secretSize))
      (T.map c) (T.map Ticket.head) := by
  induction T with
  | nil => exact .nil
  | cons t T ih =>
    refine .cons ⟨_, h t List.mem_cons_self, ?_⟩ (ih fun x hx => h x (List.mem_cons_of_mem _ hx))
    rw [List.take_left' (by simp), OfflineSecret.decode_encode]

theorem rest_tickets {pk : box.PKey} {sk : box.SKey} {T : List (Ticket box)} {c n : Ticket box → List Byte}
    (h : ∀ t ∈ T, box.openMsg pk sk (c t) = some (t.head.encode ++ n t)) :
    (T.map c).filterMap (fun cipher => (box.openMsg pk sk cipher).map (List.drop secretSize)) = T.map n := by
  induction T with
  | nil => rfl
  | cons t T ih =>
    rw [List.map_cons, List.filterMap_cons, h t List.mem_cons_self, ih fun x hx => h x (List.mem_cons_of_mem _ hx)]
    simp only [Option.map_some, List.map_cons]
    rw [List.drop_left' (by simp)]

theorem Chain.open_ticket {c : Chain box} (h : c.Valid) {k : Nat} (hk : k < c.parties) :
    ∀ t ∈ c.tickets k, box.openMsg (c.pkey k) (c.skey k) (t.cipher c.pkeys k) = some (t.head.encode ++ t.next.cipher c.pkeys (k + 1)) := by
  intro t ht
  have hg := (Chain.tickets_spec h k hk).2.1 t ht
  have hl : c.pkeys.length = c.parties := by rw [h.keys]; simp
  rw [show c.parties - k = c.parties - k - 1 + 1 by omega] at hg
  refine Ticket.open_cipher h.good (by rw [hl]; exact h.parties.2) hg (by rw [hl]; omega) ?_ (by simp [hk])
  rw [h.keys]
  simp [hk]

theorem Chain.prepared {c : Chain box} (h : c.Valid) :
    OfflineDone (fun k => box.openMsg (c.pkey k) (c.skey k)) c.parties 1 c.count (fun k _ => c.obsAll true false k) where
  asked _ _ := Chain.countsSent_client c true false
  counts k hk _ _ := by rw [Chain.countsRead_pos c true false k hk, Chain.countsSent_any c k hk]
  ciphers k hk _ _ := by rw [Chain.ciphersRead_pos c false k hk, Chain.ciphersSent_any c k hk]
  announced k hk _ _ := by
    rw [Chain.ciphersSent_any c k hk, Chain.countsSent_any c k hk, List.length_map, (Chain.tickets_spec h k hk).1]
    simp only [List.map_cons, List.map_nil, List.sum_cons, List.sum_nil, BitVec.toNat_ofNat, Nat.add_zero, Nat.mod_eq_of_lt (h.lt hk)]
  installed k hk _ _ := by
    rw [Chain.ciphersRead_pos c false k hk, Chain.stores_pos c false k hk]
    exact forall2_tickets (Chain.open_ticket h hk)
  forwarded k hk := by
    refine ⟨(realNT (c.partyRand k) c.rows (c.parties - k - 1) (c.queries k)).map (fun t => t.cipher c.pkeys (k + 1)), ?_⟩
    simp only [List.range_one, List.flatMap_cons, List.flatMap_nil, List.append_nil]
    rw [Chain.ciphersRead_pos c false k (by omega), Chain.ciphersSent_any c (k + 1) hk, rest_tickets (Chain.open_ticket h (by omega))]
    have hl : (realNT (c.partyRand k) c.rows (c.parties - k - 1) (c.queries k) ++ (c.tickets k).map Ticket.next).length =
        c.queries (k + 1) := by
      rw [List.length_append, realNT_length, List.length_map, (Chain.tickets_spec h k (by omega)).1, queries, noise_eq, Nat.add_comm]
    have hp : (c.tickets (k + 1)).Perm (realNT (c.partyRand k) c.rows (c.parties - k - 1) (c.queries k) ++
        (c.tickets k).map Ticket.next) := by
      rw [Chain.tickets]
      apply pick_perm
      rw [hl]
      exact (Chain.isShuffler h hk).perm
    have := hp.map (fun t => t.cipher c.pkeys (k + 1))
    rw [List.map_append, List.map_map] at this
    exact this

theorem Grid.countsSent_any (g : Grid box) (s k : Nat) (hk : k < g.parties) :
    countsSent (g.obsAll true false k s) = [BitVec.ofNat 32 (g.load k s)] := by
  cases k with
  | zero => exact Grid.countsSent_client g true s false
  | succ k => exact Grid.countsSent_party g true s false k hk

theorem Grid.ciphersSent_any (g : Grid box) (s k : Nat) (hk : k < g.parties) :
    ciphersSent (g.obsAll true false k s) = (g.tickets k s).map (fun t => t.cipher g.pkeys k) := by
  cases k with
  | zero =>
    rw [Grid.client_obs, ciphersSent]
    parts
  | succ k =>
    rw [Grid.party_obs g true false s k hk, ciphersSent]
    parts

theorem Grid.ciphersRead_any (g : Grid box) (s k : Nat) (hk : k < g.parties) :
    ciphersRead (g.obsAll true false (k + 1) s) = (g.tickets k s).map (fun t => t.cipher g.pkeys k) := by
  rcases Nat.lt_or_ge (k + 1) g.parties with h | h
  · rw [Grid.party_obs g true false s k h, ciphersRead]
    parts
  · rw [Grid.backend_obs g true false s k (by omega), ciphersRead]
    parts

theorem Grid.open_ticket {g : Grid box} (h : g.Valid) {k s : Nat} (hk : k < g.parties) (hs : s < g.servers) :
    ∀ t ∈ g.tickets k s, box.openMsg (g.pkey k) (g.skey k) (t.cipher g.pkeys k) = some (t.head.encode ++ t.next.cipher g.pkeys (k + 1)) := by
  intro t ht
  have hg := ((Grid.tickets_spec h k hk).1 s hs).2 t ht
  have hl := h.keysLength
  rw [show g.parties - k = g.parties - k - 1 + 1 by omega] at hg
  refine Ticket.open_cipher h.good (by rw [hl]; exact h.parties.2) hg (by rw [hl]; omega) ?_ (by simp [hk])
  rw [h.keys]
  simp [hk]

theorem Grid.prepared {g : Grid box} (h : g.Valid) {q : Nat} (hq : ∀ s < g.servers, g.count s = q) :
    OfflineDone (fun k => box.openMsg (g.pkey k) (g.skey k)) g.parties g.servers q (fun k s => g.obsAll true false k s) where
  asked s hs := (hq s hs) ▸ Grid.countsSent_client g true s false
  counts k hk s _ := by rw [Grid.countsRead_pos g true s false k hk, Grid.countsSent_any g s k hk]
  ciphers k hk s _ := by rw [Grid.ciphersRead_any g s k hk, Grid.ciphersSent_any g s k hk]
  announced k hk s hs := by
    rw [Grid.ciphersSent_any g s k hk, Grid.countsSent_any g s k hk, List.length_map, ((Grid.tickets_spec h k hk).1 s hs).1]
    have : g.load k s < 2 ^ 32 := lt_of_le_of_lt ((load_le h.pos hs).trans (Grid.total_mono g (by omega))) h.fits
    simp only [List.map_cons, List.map_nil, List.sum_cons, List.sum_nil, BitVec.toNat_ofNat, Nat.add_zero, Nat.mod_eq_of_lt this]
  installed k hk s hs := by
    rw [Grid.ciphersRead_any g s k hk, Grid.stores_pos g s false k hk]
    exact forall2_tickets (Grid.open_ticket h hk hs)
  forwarded k hk := by
    refine ⟨(List.range g.servers).flatMap fun s => (g.noiseTs k s).map (fun t => t.cipher g.pkeys (k + 1)), ?_⟩
    have e1 : ((List.range g.servers).flatMap fun s => ciphersSent (g.obsAll true false (k + 1) s)) =
        ((List.range g.servers).flatMap fun s => g.tickets (k + 1) s).map (fun t => t.cipher g.pkeys (k + 1)) := by
      rw [List.map_flatMap]
      exact List.flatMap_congr fun s _ => Grid.ciphersSent_any g s (k + 1) hk
    have e2 : ((List.range g.servers).flatMap fun s => (ciphersRead (g.obsAll true false (k + 1) s)).filterMap fun cipher =>
        (box.openMsg (g.pkey k) (g.skey k) cipher).map (List.drop secretSize)) =
        (List.range g.servers).flatMap fun s => (g.tickets k s).map (fun t => t.next.cipher g.pkeys (k + 1)) := by
      refine List.flatMap_congr fun s hs => ?_
      rw [Grid.ciphersRead_any g s k (by omega), rest_tickets (Grid.open_ticket h (by omega) (List.mem_range.1 hs))]
    rw [e1, e2]
    have hlen : ∀ s, s < g.servers → (Slot.mixed (g.tickets k) (g.noiseTs k) s).length = (g.dests k s).length := by
      intro s hs
      rw [Grid.mixed_length g _ s ((Grid.tickets_spec h k (by omega)).1 s hs).1, Grid.dests_length h hk hs]
    have hp := (shuffled_perm g.servers (g.dests k) (Slot.mixed (g.tickets k) (g.noiseTs k)) (fun t => (g.slot k t).shuf.backward)
      hlen (Grid.routing h hk).lt fun t ht => (Grid.isShuffler h hk ht).permB).map (fun t => t.cipher g.pkeys (k + 1))
    refine (List.Perm.trans (List.Perm.of_eq rfl) hp).trans ?_
    rw [List.map_flatMap]
    have e : (fun s => (Slot.mixed (g.tickets k) (g.noiseTs k) s).map (fun t => t.cipher g.pkeys (k + 1))) =
        fun s => (g.noiseTs k s).map (fun t => t.cipher g.pkeys (k + 1)) ++ (g.tickets k s).map (fun t => t.next.cipher g.pkeys (k + 1)) := by
      funext s
      unfold Slot.mixed
      rw [List.map_append, List.map_map]
      rfl
    rw [e]
    exact flatMap_append_perm' _ _ _

end DPPIR.Protocol

namespace DPPIR.Main
open DPPIR.Config DPPIR.Noise DPPIR.Protocol DPPIR.Onion

variable {box : SealedBox}

theorem main_client_offline {file : String → Option (List Byte)} {path : String} {c : Config} {s q : Nat}
    (hpath : path ≠ "") (hc : readFile (file path) = .ok c)
    (hs : s < c.serverCount.toNat) (hP : 0 < c.partyCount.toNat) :
    main file (clientFlags path "offline" s q) = .ok (.client (BitVec.ofNat 8 s) (BitVec.ofNat 32 q) true false) := by
  have h8 : BitVec.ofInt 8 (s : Int) = BitVec.ofNat 8 s := by simp
  have h32 : BitVec.ofInt 32 (q : Int) = BitVec.ofNat 32 q := by simp
  have hb : badFlags (clientFlags path "offline" s q) = false := by
    simp [badFlags, clientFlags, hpath]
    exact if_neg (by omega)
  unfold main
  rw [if_neg (by simp [hb])]
  show (readFile (file path) >>= _) = _
  rw [hc, bind_ok]
  unfold dispatch
  simp only [clientFlags]
  rw [if_neg (by omega), if_neg (by omega)]
  simp only [if_true, h8, h32]
  rfl

theorem main_party_offline {file : String → Option (List Byte)} {path : String} {c : Config} {k s : Nat}
    (hpath : path ≠ "") (hc : readFile (file path) = .ok c)
    (hs : s < c.serverCount.toNat) (hP : k < c.partyCount.toNat) :
    main file (partyFlags path "offline" k s) = .ok (
      if k + 1 < c.partyCount.toNat then
        if c.serverCount.toNat = 1 then .party (BitVec.ofNat 8 k) (BitVec.ofNat 8 s) true false
        else .parallelParty (BitVec.ofNat 8 k) (BitVec.ofNat 8 s) true false
      else .backend (BitVec.ofNat 8 s) true false) := by
  have h8 : BitVec.ofInt 8 (s : Int) = BitVec.ofNat 8 s := by simp
  have h8' : BitVec.ofInt 8 (k : Int) = BitVec.ofNat 8 k := by simp
  have hb : badFlags (partyFlags path "offline" k s) = false := by
    simp [badFlags, partyFlags, hpath]
    exact if_neg (by omega)
  unfold main
  rw [if_neg (by simp [hb])]
  show (readFile (file path) >>= _) = _
  rw [hc, bind_ok]
  unfold dispatch
  rw [if_neg (show ¬ (partyFlags path "offline" k s).serverId ≥ c.serverCount.toNat by simp only [partyFlags]; omega),
    if_neg (show ¬ (partyFlags path "offline" k s).partyId ≥ c.partyCount.toNat by simp only [partyFlags]; omega)]
  have e : ((k : Int) < (c.partyCount.toNat : Int) - 1) ↔ k + 1 < c.partyCount.toNat := by omega
  have hr : ¬ (partyFlags path "offline" k s).role = "client" := by simp [partyFlags]
  dsimp only
  rw [if_neg hr]
  simp only [partyFlags, e, h8, h8']
  rfl

variable (w : World box) (c : Config) (d : Dist)

/-- Programs of a deployment with one server per party, offline stage only. -/
theorem launch_offline (h : Usable w c d) {N : Nat} (hN : w.SamplesUpTo d N) (hS : c.serverCount.toNat = 1)
    (file : String → Option (List Byte)) (path : String) (hpath : path ≠ "")
    (hc : readFile (file path) = .ok c) (q : Nat) (hq : q < 2 ^ 32) :
    launch w file path "offline" c.partyCount.toNat q = (chainOf w c d q).progLoops true false := by
  have hP := h.parties
  have hP8 := c.partyCount.isLt
  funext i
  unfold launch Chain.progLoops
  split
  · rw [run_of w c _ (main_client_offline hpath hc (by omega) (by omega)) (by simp) hc,
      start_client w c _ (toNat8 (by omega)) (toNat32 hq)]
    rfl
  · rename_i hi
    split
    · rename_i hi2
      have hk : i - 1 < c.parties.length := by omega
      have hv := h.servers _ (partyOf_mem hk)
      by_cases hb : i < c.partyCount.toNat
      · rw [run_of w c _ (main_party_offline hpath hc (by omega) (by omega)) (by split <;> (try split) <;> simp) hc,
          if_pos (show i - 1 + 1 < c.partyCount.toNat by omega), if_pos hS, if_pos (show i < (chainOf w c d q).parties from hb),
          start_party w c d _ (toNat8 (by omega)) (toNat8 (by omega)) hk (by omega) h.noise (checked hN _ _), hS,
          show i - 1 + 2 = i - 1 + 2 from rfl]
        rfl
      · have e : i = c.partyCount.toNat := by omega
        rw [run_of w c _ (main_party_offline hpath hc (by omega) (by omega)) (by split <;> (try split) <;> simp) hc,
          if_neg (show ¬ i - 1 + 1 < c.partyCount.toNat by omega), if_neg (show ¬ i < (chainOf w c d q).parties from hb),
          if_pos (show i = (chainOf w c d q).parties from e), start_backend w c _ (toNat8 (by omega)) hS (by omega)
            (by rw [← e]; omega)]
        rfl
    · rw [if_neg (show ¬ i < (chainOf w c d q).parties by show ¬ i < c.partyCount.toNat; omega),
        if_neg (show ¬ i = (chainOf w c d q).parties by show ¬ i = c.partyCount.toNat; omega)]

/-- Programs of a deployment with several servers per party, offline stage only. -/
theorem launchMany_offline (h : Usable w c d) {N : Nat} (hN : w.SamplesUpTo d N) (hS : c.serverCount.toNat ≠ 1)
    (file : String → Option (List Byte)) (path : String) (hpath : path ≠ "")
    (hc : readFile (file path) = .ok c) (q : Nat → Nat) (hq : ∀ s < c.serverCount.toNat, q s < 2 ^ 32) :
    launchMany w file path "offline" c.partyCount.toNat c.serverCount.toNat q = (gridOf w c d q).progLoops true false := by
  have hP := h.parties
  have hP8 := c.partyCount.isLt
  have hS8 := c.serverCount.isLt
  funext i
  unfold launchMany Grid.progLoops
  obtain ⟨i, s⟩ := i
  dsimp only
  by_cases hs : s < c.serverCount.toNat
  · rw [if_pos hs, if_pos (show s < (gridOf w c d q).servers from hs)]
    split
    · rw [run_of w c _ (main_client_offline hpath hc (by omega) (by omega)) (by simp) hc,
        start_client w c _ (toNat8 (by omega)) (toNat32 (hq s hs))]
      rfl
    · rename_i hi
      split
      · rename_i hi2
        have hk : i - 1 < c.parties.length := by omega
        have hv := h.servers _ (partyOf_mem hk)
        by_cases hb : i < c.partyCount.toNat
        · rw [run_of w c _ (main_party_offline hpath hc (by omega) (by omega)) (by split <;> (try split) <;> simp) hc,
            if_pos (show i - 1 + 1 < c.partyCount.toNat by omega), if_neg hS, if_pos (show i < (gridOf w c d q).parties from hb),
            start_parallelParty w c d _ (toNat8 (by omega)) (toNat8 (by omega)) hk (by omega) h.noise (checked hN _ _)]
          have e : (gridOf w c d q).choices (i - 1) s = w.choices d (i - 1) s := rfl
          unfold Grid.partyLoops
          rw [e]
          rfl
        · have e : i = c.partyCount.toNat := by omega
          rw [run_of w c _ (main_party_offline hpath hc (by omega) (by omega)) (by split <;> (try split) <;> simp) hc,
            if_neg (show ¬ i - 1 + 1 < c.partyCount.toNat by omega), if_neg (show ¬ i < (gridOf w c d q).parties from hb),
            if_pos (show i = (gridOf w c d q).parties from e), start_backends w c _ (toNat8 (by omega)) hS (by omega)
              (by rw [← e]; omega)]
          rfl
      · rw [if_neg (show ¬ i < (gridOf w c d q).parties by show ¬ i < c.partyCount.toNat; omega),
        if_neg (show ¬ i = (gridOf w c d q).parties by show ¬ i = c.partyCount.toNat; omega)]
  · rw [if_neg hs, if_neg (show ¬ s < (gridOf w c d q).servers from hs)]

end DPPIR.Main

namespace DPPIR.Main
open DPPIR.Config DPPIR.Protocol DPPIR.Onion

variable {box : SealedBox}

theorem opens_eq (w : World box) {c : Config} {k : Nat} (h : k < c.parties.length) :
    opens w c k = box.openMsg (w.pkey (partyOf c k).pkey) (w.skey (partyOf c k).skey) := by
  funext m
  simp [opens, partyOf, h]

theorem OfflineDone.congr {f f' : Nat → List Byte → Option (List Byte)} {P S q : Nat} {seen : Nat → Nat → List Obs}
    (h : OfflineDone f P S q seen) (e : ∀ k < P, f' k = f k) : OfflineDone f' P S q seen where
  asked := h.asked
  counts := h.counts
  ciphers := h.ciphers
  announced := h.announced
  installed k hk := by rw [e k hk]; exact h.installed k hk
  forwarded k hk := by rw [e k (by omega)]; exact h.forwarded k hk

theorem OfflineDone.same {f : Nat → List Byte → Option (List Byte)} {P S q : Nat} {seen seen' : Nat → Nat → List Obs}
    (h : OfflineDone f P S q seen) (e : ∀ k, ∀ s < S, seen' k s = seen k s) : OfflineDone f P S q seen' where
  asked s hs := by rw [e _ s hs]; exact h.asked s hs
  counts k hk s hs := by rw [e _ s hs, e _ s hs]; exact h.counts k hk s hs
  ciphers k hk s hs := by rw [e _ s hs, e _ s hs]; exact h.ciphers k hk s hs
  announced k hk s hs := by rw [e _ s hs]; exact h.announced k hk s hs
  installed k hk s hs := by rw [e _ s hs]; exact h.installed k hk s hs
  forwarded k hk := by
    obtain ⟨noise, hp⟩ := h.forwarded k hk
    refine ⟨noise, ?_⟩
    rw [List.flatMap_congr fun s hs => congrArg ciphersSent (e (k + 1) s (List.mem_range.1 hs)),
      List.flatMap_congr fun s hs => congrArg (fun l => (ciphersRead l).filterMap fun cipher => (f k cipher).map (List.drop secretSize))
        (e (k + 1) s (List.mem_range.1 hs))]
    exact hp

end DPPIR.Main

namespace DPPIR.Joint
open DPPIR.Connect DPPIR.Main
open DPPIR.Protocol (Node Obs PProg)

variable {ι A : Type} [DecidableEq ι] [DecidableEq A] {pl : Plan A} {pos : ι → Node} {prog : ι → PProg ι Unit}

/-- Processes that prepare on existing connections do so when they connect first. -/
theorem connects_and_prepares (hd : pl.Distinct) (hS : pl.S ≤ 256) (hpos : Function.Injective pos)
    {setup : Node → CProc Node A (Wiring Node)} {st : Node → St} (h0 : Inv pl (CNet.start setup) st)
    {capacity P S q : Nat} {opened : Nat → List Byte → Option (List Byte)} {chain : Nat → Nat → ι}
    (hp : PreparesOnly prog (fun a b => Linked pl.P pl.S (pos a) (pos b)) capacity opened P S chain q) :
    ConnectsAndPreparesOnly pos setup prog capacity opened P S chain q := by
  have ha : Answers prog (fun a b => Linked pl.P pl.S (pos a) (pos b)) capacity 0 (chain 0) (fun _ => q) 0 (fun _ _ => 0) := fun cap hcap =>
    ⟨fun n hn => ⟨((hp cap hcap).1 n hn).1, ((hp cap hcap).1 n hn).2.1, fun _ h => absurd h (Nat.not_lt_zero _)⟩, (hp cap hcap).2⟩
  intro cap hcap
  obtain ⟨h1, h2⟩ := connects_and_answers hd hS hpos h0 ha cap hcap
  refine ⟨fun n hn => ?_, h2⟩
  obtain ⟨a1, a2, a3, -⟩ := h1 n hn
  have ht : Turns pl pos cap prog := turns ha
  obtain ⟨C, Q, h⟩ : ∃ C Q, Rel pl pos cap prog n C Q := by
    clear a1 a2 a3
    induction hn with
    | refl => exact ⟨_, _, .start h0⟩
    | step _ s ih =>
      obtain ⟨C, P, h⟩ := ih
      obtain ⟨C', P', h', -⟩ := h.step hd hS hpos ht s
      exact ⟨C', P', h'⟩
  obtain ⟨-, -, b3, b4⟩ := (hp (capOf pl pos cap) (fun a b h => by rw [capOf_linked h]; exact hcap _)).1 Q h.reach
  rw [← h.seen] at b3 b4
  refine ⟨a1, a2, a3, b3, fun hr => b4 fun i => ?_⟩
  have := (hr i).2
  rw [h.run] at this
  exact this

end DPPIR.Joint
