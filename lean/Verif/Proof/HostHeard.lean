import Verif.Model.Host
import Verif.Proof.SessionSaid
import Verif.Prop.Messages
import Verif.Proof.Parse
/-
  A message is passed to the session channel it is for, and to no other.
-/
namespace Lukko
open Spec Model

theorem parsed_pure {α} {v w : α} {s r : Bytes} (h : (expectEnd >>= fun _ => pure v) s = some (w, r)) : s = [] ∧ w = v := by
  obtain ⟨_, s1, h1, h2⟩ := bind_inv h
  obtain ⟨rfl, rfl⟩ := expectEnd_inv h1
  simp only [pure_apply, Option.some.injEq, Prod.mk.injEq] at h2
  exact ⟨rfl, h2.1.symm⟩

theorem parseAdjust_inv {p q} (h : parseChannelWindowAdjust.parse p = some q) :
    p = windowAdjustBody q.localChannel q.nbytes ∧ q.nbytes < 2 ^ 32 := by
  obtain ⟨s, hp0⟩ := parse_inv h
  obtain ⟨a, s1, h1, hp1⟩ := bind_inv hp0
  obtain ⟨b, s2, h2, hp2⟩ := bind_inv hp1
  obtain ⟨rfl, _⟩ := readU32_inv h1
  obtain ⟨rfl, g⟩ := readU32_inv h2
  obtain ⟨rfl, rfl⟩ := parsed_pure hp2
  exact ⟨by simp [windowAdjustBody], g⟩

theorem parseData_inv {p q} (h : parseChannelData.parse p = some q) :
    p = channelDataBody q.localChannel q.data ∧ q.data.length < 2 ^ 32 := by
  obtain ⟨s, hp0⟩ := parse_inv h
  obtain ⟨a, s1, h1, hp1⟩ := bind_inv hp0
  obtain ⟨b, s2, h2, hp2⟩ := bind_inv hp1
  obtain ⟨rfl, _⟩ := readU32_inv h1
  obtain ⟨rfl, g⟩ := readString_inv h2
  obtain ⟨rfl, rfl⟩ := parsed_pure hp2
  exact ⟨by simp [channelDataBody], g⟩

theorem parseExt_inv {p q} (h : parseChannelExtendedData.parse p = some q) :
    p = channelExtendedDataBody q.localChannel q.type q.data ∧ q.type < 2 ^ 32 ∧ q.data.length < 2 ^ 32 := by
  obtain ⟨s, hp0⟩ := parse_inv h
  obtain ⟨a, s1, h1, hp1⟩ := bind_inv hp0
  obtain ⟨b, s2, h2, hp2⟩ := bind_inv hp1
  obtain ⟨c, s3, h3, hp3⟩ := bind_inv hp2
  obtain ⟨rfl, _⟩ := readU32_inv h1
  obtain ⟨rfl, g⟩ := readU32_inv h2
  obtain ⟨rfl, g'⟩ := readString_inv h3
  obtain ⟨rfl, rfl⟩ := parsed_pure hp3
  exact ⟨by simp [channelExtendedDataBody], g, g'⟩

theorem parseEof_inv {p n} (h : parseChannelEof.parse p = some n) : p = channelBody n := by
  obtain ⟨s, hp0⟩ := parse_inv h
  obtain ⟨a, s1, h1, hp1⟩ := bind_inv hp0
  obtain ⟨rfl, _⟩ := readU32_inv h1
  obtain ⟨rfl, rfl⟩ := parsed_pure hp1
  simp [channelBody]

theorem readBool_inv' {s v r} (h : readBool s = some (v, r)) : ∃ w, s = w :: r := by
  cases s with
  | nil => simp [readBool, readN] at h
  | cons a s =>
    refine ⟨a, ?_⟩
    simp [readBool, readN] at h
    rw [h.2]

theorem readBool_any (w : UInt8) (s : Bytes) : ∃ v, readBool (w :: s) = some (v, s) := by
  exact ⟨_, by simp [readBool, readN]; rfl⟩

theorem parseRequest_inv {p q} (h : parseChannelRequest.parse p = some q) :
    ∃ w, p = u32 q.localChannel ++ (str q.type ++ w :: q.rest) ∧ q.type.length < 2 ^ 32 := by
  obtain ⟨s, hp0⟩ := parse_inv h
  obtain ⟨a, s1, h1, hp1⟩ := bind_inv hp0
  obtain ⟨b, s2, h2, hp2⟩ := bind_inv hp1
  obtain ⟨c, s3, h3, hp3⟩ := bind_inv hp2
  obtain ⟨d, s4, h4, hp4⟩ := bind_inv hp3
  obtain ⟨rfl, _⟩ := readU32_inv h1
  obtain ⟨rfl, g⟩ := readString_inv h2
  obtain ⟨w, rfl⟩ := readBool_inv' h3
  simp only [getRest, Option.some.injEq, Prod.mk.injEq] at h4
  obtain ⟨rfl, rfl⟩ := h4
  simp only [pure_apply, Option.some.injEq, Prod.mk.injEq] at hp4
  obtain ⟨rfl, _⟩ := hp4
  exact ⟨w, rfl, g⟩

theorem parseRequest_any {n : Nat} (hn : n < 2 ^ 32) {type : Bytes} (ht : type.length < 2 ^ 32) (w : UInt8) (data : Bytes) :
    ∃ b, parseChannelRequest.parse (u32 n ++ (str type ++ w :: data)) = some ⟨n, type, b, data⟩ := by
  obtain ⟨b, hb⟩ := readBool_any w data
  refine ⟨b, ?_⟩
  simp only [Parser.parse, parseChannelRequest, bind_apply, readU32_reads hn _, readString_reads ht _, hb, getRest, pure_apply, Option.map_some]

/-- **What a message means to a session channel is what it is told.** -/
theorem heard_iff (c : Chance) {n : Nat} (hn : n < 2 ^ 32) (m : UInt8) (p : Bytes) (e : SessEntry) :
    Heard n (m :: p) e ↔ ∃ ev, channelEvent c m p = some (n, ev) ∧ ev.mark = some e := by
  constructor
  · intro h
    cases h with
    | request ht =>
      rename_i type w data
      obtain ⟨b, hb⟩ := parseRequest_any hn ht w data
      refine ⟨.request type data c.sysOk, ?_, rfl⟩
      unfold channelEvent
      rw [if_neg (by decide), if_neg (by decide), if_neg (by decide), if_neg (by decide), if_neg (by decide), if_pos rfl, hb]
      rfl
    | data hb =>
      rename_i bs
      refine ⟨.recvData bs c.wrote, ?_, rfl⟩
      unfold channelEvent
      rw [if_neg (by decide), if_pos rfl, (C05_channel_data n bs hn hb).2.parse]
      rfl
    | ext ht hb =>
      rename_i t bs
      refine ⟨.recvExt bs.length, ?_, rfl⟩
      unfold channelEvent
      rw [if_neg (by decide), if_neg (by decide), if_pos rfl, (C05_channel_extended_data n t bs hn ht hb).2.parse]
      rfl
    | eof =>
      refine ⟨.recvEof, ?_, rfl⟩
      unfold channelEvent
      rw [if_neg (by decide), if_neg (by decide), if_neg (by decide), if_pos rfl, (C05_channel_eof n hn).2.parse]
      rfl
    | adjust hk =>
      rename_i k
      refine ⟨.recvAdjust k, ?_, rfl⟩
      unfold channelEvent
      rw [if_pos rfl, (C05_window_adjust n k hn hk).2.parse]
      rfl
  · rintro ⟨ev, h, hm⟩
    unfold channelEvent at h
    split at h
    · rename_i h0
      obtain ⟨q, hq, h⟩ := Option.map_eq_some_iff.mp h
      simp only [Prod.mk.injEq] at h
      obtain ⟨rfl, rfl⟩ := h
      cases hm
      obtain ⟨rfl, g⟩ := parseAdjust_inv hq
      rw [h0]
      exact .adjust g
    split at h
    · rename_i h0
      obtain ⟨q, hq, h⟩ := Option.map_eq_some_iff.mp h
      simp only [Prod.mk.injEq] at h
      obtain ⟨rfl, rfl⟩ := h
      cases hm
      obtain ⟨rfl, g⟩ := parseData_inv hq
      rw [h0]
      exact .data g
    split at h
    · rename_i h0
      obtain ⟨q, hq, h⟩ := Option.map_eq_some_iff.mp h
      simp only [Prod.mk.injEq] at h
      obtain ⟨rfl, rfl⟩ := h
      cases hm
      obtain ⟨rfl, g, g'⟩ := parseExt_inv hq
      rw [h0]
      exact .ext g g'
    split at h
    · rename_i h0
      obtain ⟨q, hq, h⟩ := Option.map_eq_some_iff.mp h
      simp only [Prod.mk.injEq] at h
      obtain ⟨rfl, rfl⟩ := h
      cases hm
      have := parseEof_inv hq
      subst this
      rw [h0]
      exact .eof
    split at h
    · obtain ⟨q, hq, h⟩ := Option.map_eq_some_iff.mp h
      simp only [Prod.mk.injEq] at h
      obtain ⟨rfl, rfl⟩ := h
      cases hm
    split at h
    · rename_i h0
      obtain ⟨q, hq, h⟩ := Option.map_eq_some_iff.mp h
      simp only [Prod.mk.injEq] at h
      obtain ⟨rfl, rfl⟩ := h
      cases hm
      obtain ⟨w, rfl, g⟩ := parseRequest_inv hq
      rw [h0]
      exact .request g
    · cases h

/-- No restrictions come from a channel message. -/
theorem channelEvent_restr {c m p n ev} (h : channelEvent c m p = some (n, ev)) : ∀ r, ev ≠ .restricted r := by
  rintro r rfl
  unfold channelEvent at h
  repeat' split at h
  all_goals simp at h

/-- A message without a number of a session channel's means nothing to it. -/
theorem heard_msg {n : Nat} {m : UInt8} {p : Bytes} {e : SessEntry} (h : Heard n (m :: p) e) : m ∈ [(93 : UInt8), 94, 95, 96, 98] := by
  cases h <;> simp

end Lukko
