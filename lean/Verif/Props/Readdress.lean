import Verif.Props.Programming
import Verif.Props.Throttle
import Verif.Spec.Readdress
/-! C87: a locomotive that was given another address obeys it and no longer the old one. -/
namespace Dcc
open Spec

theorem addressRequests_legal (a times resets : Nat) (ht : 2 ≤ times) :
    ∀ r ∈ addressRequests a times resets, r.access.Legal ∧ 2 ≤ r.times := by
  intro r hr
  unfold addressRequests at hr
  split at hr
  · simp only [List.mem_cons, List.not_mem_nil, or_false] at hr
    rcases hr with rfl | rfl
    · exact ⟨show 0 < 1024 by decide, ht⟩
    · exact ⟨show 28 < 1024 ∧ 5 < 8 by decide, ht⟩
  · simp only [List.mem_cons, List.not_mem_nil, or_false] at hr
    rcases hr with rfl | rfl | rfl
    · exact ⟨show 16 < 1024 by decide, ht⟩
    · exact ⟨show 17 < 1024 by decide, ht⟩
    · exact ⟨show 28 < 1024 ∧ 5 < 8 by decide, ht⟩

theorem addressRequests_alternating (a times resets : Nat) : Spec.Alternating (addressRequests a times resets) := by
  unfold addressRequests
  split <;> simp [Spec.Alternating]

theorem setBit_other (b : Byte) (v : Bool) (i : Nat) (hi : i ≠ 5) : (setBit b 5#32 v).getLsbD i = b.getLsbD i := by
  revert i
  have key : ∀ (b : Byte) (v : Bool) (i : Fin 8), i.val ≠ 5 → (setBit b 5#32 v).getLsbD i = b.getLsbD i := by
    decide +kernel
  intro i hi
  by_cases h : i < 8
  · exact key b v ⟨i, h⟩ hi
  · rw [BitVec.getLsbD_of_ge _ _ (by omega), BitVec.getLsbD_of_ge _ _ (by omega)]

theorem setBit_same (b : Byte) (v : Bool) : (setBit b 5#32 v).getLsbD 5 = v := by
  revert b v
  decide +kernel

theorem performed_write (c : BitVec 32 → Byte) (hl : locks c = false) (a : Access) :
    performed c .write a = (applyWrite c a, [accessCall c .write a, .serviceAck]) := by
  unfold performed
  rw [if_pos (by simp [permitted, hl])]
  rfl

/-- The CVs with a short or a long address. -/
theorem performAll_address (c : BitVec 32 → Byte) (hl : locks c = false) (a times resets : Nat) :
    (performAll c (addressRequests a times resets)).1 =
      (if a < 128 then applyWrite (applyWrite c (.byte 0 (BitVec.ofNat 8 a))) (.bit 28 false 5)
      else applyWrite (applyWrite (applyWrite c (.byte 16 (BitVec.ofNat 8 (192 + a / 256))))
        (.byte 17 (BitVec.ofNat 8 (a % 256)))) (.bit 28 true 5)) ∧
      ∀ x ∈ answers (performAll c (addressRequests a times resets)).2, x = true := by
  have h0 : ∀ (c : BitVec 32 → Byte) (b : Byte), locks (applyWrite c (.byte 0 b)) = locks c := fun _ _ => by
    simp [locks, applyWrite]
  have h16 : ∀ (c : BitVec 32 → Byte) (b : Byte), locks (applyWrite c (.byte 16 b)) = locks c := fun _ _ => by
    simp [locks, applyWrite]
  have h17 : ∀ (c : BitVec 32 → Byte) (b : Byte), locks (applyWrite c (.byte 17 b)) = locks c := fun _ _ => by
    simp [locks, applyWrite]
  unfold addressRequests
  split
  · simp only [performAll, performed_write c hl, performed_write _ ((h0 c _).trans hl)]
    exact ⟨trivial, by simp [answers]⟩
  · simp only [performAll, performed_write c hl, performed_write _ ((h16 c _).trans hl),
      performed_write _ ((h17 _ _).trans ((h16 c _).trans hl))]
    exact ⟨trivial, by simp [answers]⟩

/-- **C87** The requests write the address and nothing else, and all of them are acknowledged. -/
theorem C87_written (c : BitVec 32 → Byte) (hl : locks c = false) (a times resets : Nat) (ha : 1 ≤ a ∧ a < 10240) :
    Readdressed c (performAll c (addressRequests a times resets)).1 a ∧
      ∀ x ∈ answers (performAll c (addressRequests a times resets)).2, x = true := by
  obtain ⟨h1, h2⟩ := performAll_address c hl a times resets
  refine ⟨?_, h2⟩
  rw [h1]
  split
  · have e28 : applyWrite (applyWrite c (.byte 0 (BitVec.ofNat 8 a))) (.bit 28 false 5) 28#32 =
        setBit (c 28#32) 5#32 false := by simp [applyWrite]
    have e0 : applyWrite (applyWrite c (.byte 0 (BitVec.ofNat 8 a))) (.bit 28 false 5) 0#32 = BitVec.ofNat 8 a := by
      simp [applyWrite]
    refine ⟨?_, fun i hi => by rw [e28]; exact setBit_other _ _ i hi, fun cv h3 h4 h5 h6 => ?_⟩
    · have hb : primaryByte (applyWrite (applyWrite c (.byte 0 (BitVec.ofNat 8 a))) (.bit 28 false 5)) =
          BitVec.ofNat 8 a := by
        rw [primaryByte, e28, setBit_same, if_neg (by decide), e0]
      have hn : (BitVec.ofNat 8 a).toNat = a := by rw [BitVec.toNat_ofNat]; omega
      rw [primaryNumber, hb, hn, if_neg (by omega)]
    · simp [applyWrite, h3, h6]
  · have e28 : applyWrite (applyWrite (applyWrite c (.byte 16 (BitVec.ofNat 8 (192 + a / 256))))
        (.byte 17 (BitVec.ofNat 8 (a % 256)))) (.bit 28 true 5) 28#32 = setBit (c 28#32) 5#32 true := by
      simp [applyWrite]
    have e16 : applyWrite (applyWrite (applyWrite c (.byte 16 (BitVec.ofNat 8 (192 + a / 256))))
        (.byte 17 (BitVec.ofNat 8 (a % 256)))) (.bit 28 true 5) 16#32 = BitVec.ofNat 8 (192 + a / 256) := by
      simp [applyWrite]
    have e17 : applyWrite (applyWrite (applyWrite c (.byte 16 (BitVec.ofNat 8 (192 + a / 256))))
        (.byte 17 (BitVec.ofNat 8 (a % 256)))) (.bit 28 true 5) 17#32 = BitVec.ofNat 8 (a % 256) := by
      simp [applyWrite]
    refine ⟨?_, fun i hi => by rw [e28]; exact setBit_other _ _ i hi, fun cv h3 h4 h5 h6 => ?_⟩
    · have hb : primaryByte (applyWrite (applyWrite (applyWrite c (.byte 16 (BitVec.ofNat 8 (192 + a / 256))))
          (.byte 17 (BitVec.ofNat 8 (a % 256)))) (.bit 28 true 5)) = BitVec.ofNat 8 (192 + a / 256) := by
        rw [primaryByte, e28, setBit_same, if_pos rfl, e16]
      have hn : (BitVec.ofNat 8 (192 + a / 256)).toNat = 192 + a / 256 := by rw [BitVec.toNat_ofNat]; omega
      have hn' : (BitVec.ofNat 8 (a % 256)).toNat = a % 256 := by rw [BitVec.toNat_ofNat]; omega
      rw [primaryNumber, hb, hn, if_pos (by omega), e17, hn']
      omega
    · simp [applyWrite, h4, h5, h6]

/-- What a settled decoder does about a command is what its CVs say. -/
theorem calls_callsOf {m : BitVec 32 → Byte} {s : Rx} (hs : Settled m s) (hl : s.addrs.primary.type.isLoco = true)
    (cmd : Command) : cmd.calls s = cmd.callsOf (mem m s.trace) := by
  have hr := hs.reflects
  have hv : ∀ n, Active s n ↔ n = primaryNumber (mem m s.trace) ∨ n = consistNumber (mem m s.trace) := by
    intro n
    rw [Active, if_pos hs.address, hr.primaryValue, hr.consistValue, hr.consistType, hl]
    simp [AddrType.isLoco, consistNumber]
  have ht : target s cmd.addr.value.toNat = cmd.addr.value := by
    rw [target, if_pos (.inr hs.address)]
    simp
  have he : cmd.addr.value = s.addrs.primary.value ↔ cmd.addr.value.toNat = primaryNumber (mem m s.trace) := by
    rw [← hr.primaryValue]
    exact ⟨fun h => by rw [h], BitVec.eq_of_toNat_eq⟩
  unfold Command.calls Command.callsOf
  dsimp only
  rw [ht, reversedAt, hr.f0Exception, hr.primaryReversed, hr.consistReversed]
  simp only [hv, he]

/-! ### The device -/

theorem keeps_append (xs ys : List ServiceItem) : ∀ d : Device,
    KeepsAddress d (xs ++ ys) ↔ KeepsAddress d xs ∧ KeepsAddress (d.run xs).1 ys := by
  induction xs with
  | nil => intro d; simp [KeepsAddress, Device.run]
  | cons x xs ih => intro d; simp only [List.cons_append, KeepsAddress, ih, Device.run, and_assoc]

/-- Packets that keep a property of the CVs. -/
theorem keeps_items (Q : (BitVec 32 → Byte) → Prop) (hQ : ∀ c, Q c → HasAddress c) (items : List ServiceItem)
    (h : ∀ k a, .direct k a ∈ items → ∀ c, Q c → Q (performed c k a).1) : ∀ d : Device, Q d.cvs →
    KeepsAddress d items ∧ Q (d.run items).1.cvs := by
  induction items with
  | nil => exact fun d hd => ⟨trivial, hd⟩
  | cons i is ih =>
    intro d hd
    have h1 : Q (d.step i).1.cvs := by
      unfold Device.step
      split
      · split <;> exact hd
      · split <;> exact hd
      · split
        · exact hd
        · exact hd
        · rename_i k a _ _ p _ _
          dsimp only
          by_cases hn : (if d.last = p then d.count + 1 else 1) = 2
          · rw [if_pos hn]
            exact h k a (by simp) _ hd
          · rw [if_neg hn]
            exact hd
    obtain ⟨h2, h3⟩ := ih (fun k a hm => h k a (by simp [hm])) (d.step i).1 h1
    exact ⟨⟨hQ _ h1, h2⟩, h3⟩

theorem performed_cases (c : BitVec 32 → Byte) (a : Access) :
    (performed c .write a).1 = c ∨ (performed c .write a).1 = applyWrite c a := by
  unfold performed
  split
  · exact .inr rfl
  · exact .inl rfl

theorem items_direct {r : Request} {k : Kind} {a : Access} (h : .direct k a ∈ r.items) : k = r.kind ∧ a = r.access := by
  simp only [Request.items, List.mem_append, List.mem_replicate, reduceCtorEq, and_false, or_false] at h
  exact ⟨(ServiceItem.direct.inj h.2).1, (ServiceItem.direct.inj h.2).2⟩

/-- The CVs have an address all the time. -/
theorem keeps_address (d : Device) (hd : d.service = true) (hl : locks d.cvs = false) (ha : HasAddress d.cvs)
    (a times resets : Nat) (ht : 2 ≤ times)
    (hlast : ∀ r ∈ (addressRequests a times resets).head?, .ok d.last ≠ (ServiceItem.direct r.kind r.access).packet) :
    KeepsAddress d ((addressRequests a times resets).flatMap Request.items) := by
  have hleg := addressRequests_legal a times resets ht
  unfold addressRequests at hlast hleg ⊢
  split
  · rename_i h128
    rw [if_pos h128] at hlast hleg
    rw [List.flatMap_cons, keeps_append]
    constructor
    · refine (keeps_items HasAddress (fun _ h => h) _ ?_ d ha).1
      intro k acc hm c hc
      obtain ⟨rfl, rfl⟩ := items_direct hm
      rcases performed_cases c (.byte 0 (BitVec.ofNat 8 a)) with h | h
      · rw [h]; exact hc
      · rw [h]
        refine .inr (.inl ?_)
        simp only [applyWrite, if_pos, BitVec.toNat_ofNat]
        omega
    · obtain ⟨h1, -, -⟩ := run_requests [⟨.write, .byte 0 (BitVec.ofNat 8 a), times, resets⟩] d hd
        (fun r hr => hleg r (by rw [List.mem_singleton] at hr; simp [hr])) trivial hlast
      simp only [List.flatMap_cons, List.flatMap_nil, List.append_nil, performAll, performed_write _ hl] at h1
      rw [List.flatMap_cons, List.flatMap_nil, List.append_nil]
      refine (keeps_items (fun c => (c 0#32).toNat < 192) (fun _ h => .inr (.inl h)) _ ?_ _ ?_).1
      · intro k acc hm c hc
        obtain ⟨rfl, rfl⟩ := items_direct hm
        rcases performed_cases c (.bit 28 false 5) with h | h
        · rw [h]; exact hc
        · rw [h]; simpa [applyWrite] using hc
      · rw [h1]
        simp only [applyWrite, if_pos, BitVec.toNat_ofNat]
        omega
  · refine (keeps_items HasAddress (fun _ h => h) _ ?_ d ha).1
    intro k acc hm c hc
    obtain ⟨r, hr, hm⟩ := List.mem_flatMap.mp hm
    obtain ⟨rfl, rfl⟩ := items_direct hm
    simp only [List.mem_cons, List.not_mem_nil, or_false] at hr
    rcases hr with rfl | rfl | rfl
    · rcases performed_cases c (.byte 16 (BitVec.ofNat 8 (192 + a / 256))) with h | h
      · rw [h]; exact hc
      · rw [h]; simpa [HasAddress, applyWrite] using hc
    · rcases performed_cases c (.byte 17 (BitVec.ofNat 8 (a % 256))) with h | h
      · rw [h]; exact hc
      · rw [h]; simpa [HasAddress, applyWrite] using hc
    · rcases performed_cases c (.bit 28 true 5) with h | h
      · rw [h]; exact hc
      · rw [h]
        refine .inl ?_
        simp only [applyWrite, if_pos]
        exact setBit_same _ _

theorem run_idles (d : Device) (hd : d.service = false) (j : Nat) : d.run (List.replicate j .idle) = (d, []) := by
  have h1 : d.step .idle = (d, []) := by unfold Device.step; simp only [hd, Bool.false_eq_true, if_false]
  induction j with
  | zero => rfl
  | succ n ih => rw [List.replicate_succ, Device.run, h1, ih]; rfl

theorem run_idles_service (d : Device) (hd : d.service = true) (j : Nat) :
    d.run (List.replicate (j + 1) .idle) = ({ d with service := false }, [.serviceModeHook false]) := by
  have h1 : d.step .idle = ({ d with service := false }, [.serviceModeHook false]) := by
    unfold Device.step; simp only [hd, if_true]
  rw [List.replicate_succ, Device.run, h1]
  dsimp only
  rw [run_idles _ rfl]
  rfl

theorem sessionItems_eq (a times resets i j : Nat) : sessionItems a times resets i j =
    (List.replicate i .idle ++ List.replicate (resets + 1) .reset ++
      (addressRequests a times resets).flatMap Request.items) ++ List.replicate (j + 1) .idle := by
  simp [sessionItems, addressItems, List.replicate_succ]

/-- What they do to the device. -/
theorem address_device (d : Device) (hd : d.service = false) (hl : locks d.cvs = false) (hh : HasAddress d.cvs)
    (a times resets i j : Nat) (ht : 2 ≤ times)
    (hlast : ∀ r ∈ (addressRequests a times resets).head?, .ok d.last ≠ (ServiceItem.direct r.kind r.access).packet) :
    let items := sessionItems a times resets i j
    let r := performAll d.cvs (addressRequests a times resets)
    (d.run items).1.cvs = r.1 ∧ (d.run items).1.service = false ∧
      (d.run items).2 = .serviceModeHook true :: r.2.flatten ++ [.serviceModeHook false] ∧
      KeepsAddress d items ∧ Served d items := by
  dsimp only
  rw [sessionItems_eq]
  obtain ⟨h1, h2, h3⟩ := C79_requests d hd i resets _ (addressRequests_legal a times resets ht)
    (addressRequests_alternating a times resets) hlast
  rw [Device.run_append, run_idles_service _ h2]
  refine ⟨h1, rfl, by rw [h3], ?_, ?_⟩
  · have hd1 : d.run (List.replicate i .idle ++ List.replicate (resets + 1) .reset) =
        ({ d with service := true }, [.serviceModeHook true]) := by
      have h2 : d.step .reset = ({ d with service := true }, [.serviceModeHook true]) := by
        unfold Device.step; simp only [hd, Bool.false_eq_true, if_false]
      rw [Device.run_append, run_idles _ hd, List.replicate_succ]
      dsimp only
      rw [Device.run, h2]
      dsimp only
      rw [run_resets _ _ rfl]
      rfl
    have hq : ∀ (is : List ServiceItem), (∀ k acc, .direct k acc ∉ is) → ∀ d : Device, HasAddress d.cvs →
        KeepsAddress d is := fun is his d hd =>
      (keeps_items HasAddress (fun _ h => h) is (fun k acc hm => absurd hm (his k acc)) d hd).1
    rw [keeps_append, keeps_append, hd1]
    have hk := keeps_address { d with service := true } rfl hl hh a times resets ht hlast
    refine ⟨⟨hq _ (by simp) _ hh, hk⟩, hq _ (by simp) _ ?_⟩
    rw [h1]
    clear hk
    obtain ⟨h4, -⟩ := performAll_address d.cvs hl a times resets
    rw [h4]
    split
    · refine .inr (.inl ?_)
      have e0 : applyWrite (applyWrite d.cvs (.byte 0 (BitVec.ofNat 8 a))) (.bit 28 false 5) 0#32 =
        BitVec.ofNat 8 a := by simp [applyWrite]
      rw [e0, BitVec.toNat_ofNat]
      omega
    · refine .inl ?_
      simp only [applyWrite, if_pos]
      exact setBit_same _ _
  · refine served_of_inService _ _ ?_
    rw [hd]
    have hin : ∀ (b : Bool) (n : Nat) (is : List ServiceItem), InService true is →
        InService b (List.replicate (n + 1) .reset ++ is) := by
      intro b n is h
      induction n generalizing b with
      | zero => exact h
      | succ n ih => exact ih true
    have hin0 : ∀ (n : Nat) (is : List ServiceItem), InService true is →
        InService true (List.replicate n .reset ++ is) := by
      intro n is h
      cases n with
      | zero => exact h
      | succ n => exact hin true n is h
    have hdir : ∀ (n : Nat) (k : Kind) (acc : Access) (is : List ServiceItem), InService true is →
        InService true (List.replicate n (.direct k acc) ++ is) := by
      intro n k acc is h
      induction n with
      | zero => exact h
      | succ n ih => exact ⟨rfl, ih⟩
    have hidle : ∀ (n : Nat) (b : Bool), InService b (List.replicate n .idle) := by
      intro n
      induction n with
      | zero => intro b; trivial
      | succ n ih => intro b; exact ih false
    have hidle' : ∀ (n : Nat) (is : List ServiceItem), InService false is →
        InService false (List.replicate n .idle ++ is) := by
      intro n is h
      induction n with
      | zero => exact h
      | succ n ih => exact ih
    have hreq : ∀ (rs : List Request) (is : List ServiceItem), InService true is →
        InService true (rs.flatMap Request.items ++ is) := by
      intro rs is h
      induction rs with
      | nil => exact h
      | cons r rs ih =>
        rw [List.flatMap_cons, Request.items, List.append_assoc, List.append_assoc]
        exact hdir _ _ _ _ (hin0 _ _ ih)
    rw [List.append_assoc, List.append_assoc]
    exact hidle' _ _ (hin _ _ _ (hreq _ _ (hidle _ _)))

theorem sessionItems_legal (a times resets i j : Nat) (ht : 2 ≤ times) :
    ∀ x ∈ sessionItems a times resets i j, x.Legal := by
  intro x hx
  rw [sessionItems_eq] at hx
  simp only [List.mem_append, List.mem_replicate, List.mem_flatMap] at hx
  rcases hx with ((⟨-, rfl⟩ | ⟨-, rfl⟩) | ⟨r, hr, hx⟩) | ⟨-, rfl⟩
  · trivial
  · trivial
  · simp only [Request.items, List.mem_append, List.mem_replicate] at hx
    rcases hx with ⟨-, rfl⟩ | ⟨-, rfl⟩
    · exact (addressRequests_legal a times resets ht r hr).1
    · trivial
  · trivial

/-! ### The decoder -/

/-- The address is that of a locomotive. -/
theorem readdressed_loco {m : BitVec 32 → Byte} {s : Rx} (hs : Settled m s) (c : BitVec 32 → Byte)
    (hl : locks c = false) (a times resets : Nat) (ha : 1 ≤ a ∧ a < 10240)
    (hc : mem m s.trace = (performAll c (addressRequests a times resets)).1) :
    s.addrs.primary.type.isLoco = true := by
  obtain ⟨⟨lo, hi, t⟩, hm, h1, h2, h3⟩ := hs.reflects.primaryType
  rw [hc, (performAll_address c hl a times resets).1] at h1 h2
  have hb : (1 ≤ (primaryByte (mem m s.trace)).toNat ∧ (primaryByte (mem m s.trace)).toNat ≤ 127) ∨
      (192 ≤ (primaryByte (mem m s.trace)).toNat ∧ (primaryByte (mem m s.trace)).toNat ≤ 231) := by
    rw [hc, (performAll_address c hl a times resets).1]
    split
    · have hb : primaryByte (applyWrite (applyWrite c (.byte 0 (BitVec.ofNat 8 a))) (.bit 28 false 5)) =
          BitVec.ofNat 8 a := by
        have e28 : applyWrite (applyWrite c (.byte 0 (BitVec.ofNat 8 a))) (.bit 28 false 5) 28#32 =
          setBit (c 28#32) 5#32 false := by simp [applyWrite]
        rw [primaryByte, e28, setBit_same, if_neg (by decide)]
        simp [applyWrite]
      rw [hb, BitVec.toNat_ofNat]
      omega
    · have hb : primaryByte (applyWrite (applyWrite (applyWrite c (.byte 16 (BitVec.ofNat 8 (192 + a / 256))))
          (.byte 17 (BitVec.ofNat 8 (a % 256)))) (.bit 28 true 5)) = BitVec.ofNat 8 (192 + a / 256) := by
        have e28 : applyWrite (applyWrite (applyWrite c (.byte 16 (BitVec.ofNat 8 (192 + a / 256))))
          (.byte 17 (BitVec.ofNat 8 (a % 256)))) (.bit 28 true 5) 28#32 = setBit (c 28#32) 5#32 true := by
          simp [applyWrite]
        rw [primaryByte, e28, setBit_same, if_pos rfl]
        simp [applyWrite]
      rw [hb, BitVec.toNat_ofNat]
      omega
  rw [← (performAll_address c hl a times resets).1, ← hc] at h1 h2
  generalize (primaryByte (mem m s.trace)).toNat = b at h1 h2 hb
  subst h3
  simp only [firstByteClass, List.mem_cons, Prod.mk.injEq, List.not_mem_nil, or_false] at hm
  dsimp only at h1 h2 ⊢
  rcases hm with ⟨rfl, rfl, h⟩ | ⟨rfl, rfl, h⟩ | ⟨rfl, rfl, h⟩ | ⟨rfl, rfl, h⟩ | ⟨rfl, rfl, h⟩ | ⟨rfl, rfl, h⟩ |
    ⟨rfl, rfl, h⟩ | ⟨rfl, rfl, h⟩ <;> first | (exfalso; omega) | (rw [h]; rfl)

/-- **C87** A decoder outside service mode, with an address and with its CVs not locked, gets the packets of a
programmer and calls `execute` after every `receive`, with room for two packets.  It does not fault, every
request is done once and acknowledged, and afterwards it is out of service mode and has the new address, the
other CVs being those before. -/
theorem C87_reprogrammed (e : Env) (hroom : 2 ≤ e.rxDeque) (m : BitVec 32 → Byte) (hm : Memory e m) (s : Rx)
    (hr : Reachable e s) (hs : Settled m s) (hdq : s.deque = []) (hsv : s.serviceMode = false)
    (hl : locks (mem m s.trace) = false) (hh : HasAddress (mem m s.trace)) (a times resets before behind : Nat)
    (ha : 1 ≤ a ∧ a < 10240) (ht : 2 ≤ times)
    (hlast : ∀ r ∈ (addressRequests a times resets).head?,
      .ok s.lastOwnCvPacket ≠ (ServiceItem.direct r.kind r.access).packet)
    (xs : List (Nat × Nat × Int × Nat)) (l' : Link) (os : List LinkOut) (h1 : s.link.run (xs.map (·.1)) = .ok (l', os))
    (h2 : (sessionItems a times resets before (behind + 1)).map ServiceItem.packet = (packetsOf os).map .ok) :
    let r := performAll (mem m s.trace) (addressRequests a times resets)
    ∃ s1, s.run e (polled xs) = .ok s1 ∧ Readdressed (mem m s.trace) (mem m s1.trace) a ∧
      (∀ x ∈ answers r.2, x = true) ∧
      sessionCalls s s1 = .serviceModeHook true :: r.2.flatten ++ [.serviceModeHook false] ∧
      s1.serviceMode = false ∧ s1.link = l' ∧ (l'.packetEnd = false → s1.deque = []) ∧ Settled m s1 ∧
      ∀ cmd : Command, cmd.calls s1 = cmd.callsOf (mem m s1.trace) := by
  obtain ⟨hf, hend⟩ := polled_neverFull e hroom xs s hr (by simp [hdq]) (fun _ => hdq)
  have htm : recvTimes (polled xs) = xs.map (·.1) := by
    clear hf hend h1
    induction xs with
    | nil => rfl
    | cons x xs ih =>
      have : recvTimes (polled (x :: xs)) = x.1 :: recvTimes (polled xs) := rfl
      rw [this, ih]; rfl
  have hops : ∀ op ∈ polled xs, op.isReceive = true ∨ op.isExecute = true := by
    intro op hop
    unfold polled at hop
    obtain ⟨x, _, hop⟩ := List.mem_flatMap.mp hop
    simp only [List.mem_cons, List.not_mem_nil, or_false] at hop
    rcases hop with rfl | rfl
    · exact .inl rfl
    · exact .inr rfl
  have hno : ∀ op, op.isReceive = false → op.isExecute = false → op ∉ polled xs := by
    intro op h5 h6 hm
    rcases hops op hm with h | h
    · rw [h5] at h; cases h
    · rw [h6] at h; cases h
  have hdev := fun j => address_device (deviceOf m s) hsv hl hh a times resets before j ht hlast
  have hleg := sessionItems_legal a times resets before (behind + 1) ht
  obtain ⟨-, -, -, hka, hin⟩ := hdev (behind + 1)
  obtain ⟨s1, ho⟩ := session_total hm (polled xs) s l' os _ hr hs hops hf (by rw [htm]; exact h1) hleg
    (by rw [hdq]; exact h2) hin hka
  obtain ⟨done, waiting, h5, h6, h7, h8, h9⟩ := session_items hm hr hs hdq ho (hno _ rfl rfl) (hno _ rfl rfl)
    (fun _ _ => hno _ rfl rfl) (fun _ _ => hno _ rfl rfl) hf hleg (by rw [htm]; exact h1) h2 hin
  obtain ⟨h10, h11⟩ := hend s1 ho
  have hlen : waiting.length = s1.deque.length := by simpa using congrArg List.length h6
  have hw : waiting.length ≤ 1 := by
    rw [hlen]
    exact h10
  have hdone : ∃ j, done = sessionItems a times resets before j := by
    have hcut : ∀ (A : List ServiceItem) (x : ServiceItem), A ++ [x] = done ++ waiting →
        done = A ∨ done = A ++ [x] := by
      intro A x hA
      match waiting, hw with
      | [], _ => right; simpa using hA.symm
      | [y], _ => left; exact (List.append_inj' hA.symm rfl).1
    have hsucc : sessionItems a times resets before (behind + 1) = sessionItems a times resets before behind ++ [.idle] := by
      simp [sessionItems, List.replicate_succ']
    rw [hsucc] at h5
    rcases hcut _ _ h5 with h | h
    · exact ⟨behind, h⟩
    · exact ⟨behind + 1, by rw [h, hsucc]⟩
  obtain ⟨j, rfl⟩ := hdone
  obtain ⟨d1, d2, d3, -, -⟩ := hdev j
  dsimp only at d1 d2 d3 ⊢
  rw [← h7] at d1 d2
  rw [← h8] at d3
  have hc1 : mem m s1.trace = (performAll (mem m s.trace) (addressRequests a times resets)).1 := d1
  obtain ⟨h12, h13⟩ := C87_written (mem m s.trace) hl a times resets ha
  have hlink : s1.link = l' := by
    obtain ⟨os', h14, -⟩ := run_interleaved e (polled xs) s s1 ho (hno _ rfl rfl) hf
    rw [htm, h1] at h14
    exact (Prod.mk.inj (Except.ok.inj h14)).1.symm
  refine ⟨s1, ho, by rw [hc1]; exact h12, h13, d3, d2, hlink, by rw [← hlink]; exact h11, h9, fun cmd => ?_⟩
  exact calls_callsOf h9 (readdressed_loco h9 _ hl a times resets ha hc1) cmd

/-- **C87** A command to the address it has is obeyed with the calls it asks for, whatever the address was. -/
theorem C87_new_address (c : BitVec 32 → Byte) (cmd : Command) (h : cmd.addr.value.toNat = primaryNumber c) :
    cmd.callsOf c = AddressedCall.asks (!(c 28#32).getLsbD 1) ((c 28#32).getLsbD 0) cmd.addr.value cmd.call := by
  simp [Command.callsOf, h]

/-- **C87** A command to another address, be it the old one, does nothing, unless that is the consist address. -/
theorem C87_old_address (c : BitVec 32 → Byte) (cmd : Command) (h0 : cmd.addr.value.toNat ≠ 0)
    (h : cmd.addr.value.toNat ≠ primaryNumber c) (h' : cmd.addr.value.toNat ≠ consistNumber c) :
    cmd.callsOf c = [] := by
  simp [Command.callsOf, h0, h, h']

/-- **C87** From the programming track to the main track: the decoder of `C87_reprogrammed` has executed the last
packet and waits for a preamble when a station begins to transmit.  It does not fault, and of the commands it
carries out those for everyone, for the new address and for the consist address, and no others. -/
theorem C87_programming_to_main_track (e : Env) (hroom : 2 ≤ e.rxDeque) (m : BitVec 32 → Byte) (hm : Memory e m)
    (s : Rx) (hr : Reachable e s) (hs : Settled m s) (hdq : s.deque = []) (hsv : s.serviceMode = false)
    (hl : locks (mem m s.trace) = false) (hh : HasAddress (mem m s.trace)) (a times resets before behind : Nat)
    (ha : 1 ≤ a ∧ a < 10240) (ht : 2 ≤ times)
    (hlast : ∀ r ∈ (addressRequests a times resets).head?,
      .ok s.lastOwnCvPacket ≠ (ServiceItem.direct r.kind r.access).packet)
    (xs : List (Nat × Nat × Int × Nat)) (l' : Link) (os : List LinkOut) (h1 : s.link.run (xs.map (·.1)) = .ok (l', os))
    (h2 : (sessionItems a times resets before (behind + 1)).map ServiceItem.packet = (packetsOf os).map .ok)
    (hp : l'.state = .preamble) (hpe : l'.packetEnd = false)
    (n : Nat) (txOps : List TxOp) (h : TxHist) (htx : ({ s := {} } : TxHist).run n txOps = .ok h)
    (cmds : List Command) (hc : ∀ c ∈ cmds, c.Legal)
    (hacc : h.acc.map (fun a => Except.ok a.2) = cmds.map Command.packet)
    (ys : List (Nat × Nat × Int × Nat)) (htimes : ys.map (·.1) = h.out.map (·.duration)) :
    ∃ s1 s2, s.run e (polled xs) = .ok s1 ∧ s1.run e (polled ys) = .ok s2 ∧
      Readdressed (mem m s.trace) (mem m s1.trace) a ∧
      ∃ done waiting unsent : List Command, cmds = done ++ waiting ++ unsent ∧
        drivingCalls s1 s2 = done.flatMap (Command.callsOf (mem m s1.trace)) ∧
        waiting.length ≤ (if s2.packetEnd then 1 else 0) ∧
        (unsent.length = h.s.size n ∨
          unsent.length = h.s.size n + 1 ∧ h.s.packetCount < h.s.current.length) := by
  obtain ⟨s1, h3, h4, -, -, h5, h6, h7, -, h8⟩ := C87_reprogrammed e hroom m hm s hr hs hdq hsv hl hh a times resets
    before behind ha ht hlast xs l' os h1 h2
  obtain ⟨s2, h9, done, waiting, unsent, h10, h11, h12, h13⟩ := C75_main_loop n txOps h htx cmds hc hacc e hroom s1
    (hr.run _ h3) ⟨h5, h7 hpe, by omega, by rw [h6]; exact hp⟩ ys htimes
  refine ⟨s1, s2, h3, h9, h4, done, waiting, unsent, h10, ?_, h12, h13⟩
  rw [h11]
  congr 1
  exact funext h8

/-! ### Examples -/

/-- The packets that give a locomotive the address 5. -/
def exampleAddress : List ServiceItem := sessionItems 5 2 0 0 1

/-- The programmer's calls. -/
def addressProgrammer : List TxOp :=
  .init { bidi := false } :: (exampleAddress.filterMap fun i => i.packet.toOption.map .bytes) ++
    List.replicate 812 .transmit

/-- Commands to the old address and to the new one. -/
def addressCommands : List Command :=
  [⟨{ value := 3, type := .short }, .advancedSpeed 0x86#8⟩, ⟨{ value := 5, type := .short }, .advancedSpeed 0x86#8⟩]

/-- The station's calls. -/
def addressStation : List TxOp :=
  .init { bidi := false } :: (addressCommands.filterMap fun c => c.packet.toOption.map .bytes) ++
    List.replicate 320 .transmit

/-- The programmer sends an idle packet and these packets, the hypotheses on the decoder hold, and it obeys the new
address only. -/
example :
    (match ({ s := {} } : TxHist).run 16 addressProgrammer, ({ s := {} } : TxHist).run 16 addressStation,
      ({} : Rx).run exampleEnv [.init] with
    | .ok h, .ok h', .ok s =>
      decide (s.deque = [] ∧ s.serviceMode = false ∧ s.lastOwnCvPacket = [] ∧ locks (mem exampleCvs s.trace) = false) &&
      (match s.link.run (h.out.map (fun o => o.duration)) with
      | .ok (l', os) => decide ((sessionItems 5 2 0 1 1).map ServiceItem.packet = (packetsOf os).map .ok ∧
          l'.state = .preamble ∧ l'.packetEnd = false)
      | .error _ => false) &&
      (match s.run exampleEnv (polled (h.out.map fun o => (o.duration, 0, 0, 0))) with
      | .ok s1 => match s1.run exampleEnv (polled (h'.out.map fun o => (o.duration, 0, 0, 0))) with
        | .ok s2 => decide (drivingCalls s1 s2 = [.direction 5#16 true, .speed 5#16 10])
        | .error _ => false
      | .error _ => false)
    | _, _, _ => false) = true := by decide +kernel

/-- The commands are legal and those the station was given, and the CVs have an address. -/
example : (∀ c ∈ addressCommands, c.Legal) ∧ HasAddress exampleCvs ∧ addressCommands.map Command.packet =
    [.ok [3#8, 0x3F#8, 0x86#8, 0xBA#8], .ok [5#8, 0x3F#8, 0x86#8, 0xBC#8]] := by
  refine ⟨?_, by unfold HasAddress; decide +kernel, by decide +kernel⟩
  intro c hc
  simp only [addressCommands, List.mem_cons, List.not_mem_nil, or_false] at hc
  rcases hc with rfl | rfl
  · exact ⟨.inr (.inl ⟨rfl, by decide, by decide⟩), trivial⟩
  · exact ⟨.inr (.inl ⟨rfl, by decide, by decide⟩), trivial⟩

/-- The first request is not the (empty) packet counted last. -/
example : ∀ r ∈ (addressRequests 5 2 0).head?, (.ok [] : R Packet) ≠ (ServiceItem.direct r.kind r.access).packet := by
  intro r hr
  simp only [addressRequests, Nat.reduceLT, if_true, List.head?_cons, Option.mem_def, Option.some.injEq] at hr
  subst hr
  decide +kernel

end Dcc
