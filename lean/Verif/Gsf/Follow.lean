import Verif.Gsf.Session
import Verif.Gsf.Trunc
import Verif.Gsf.Short

/-!
# Reading a file while it is written

Models a program that holds one decoder session (`mediagrains/gsf.py:1218-1341`) on a file that another program is still writing:
each `next()` sees the file as it is at that moment.  The position of the file and the headers of the session stay; a generator that has
ended is replaced by calling `grains()` again.  Simplification: a call sees the file at one moment, it does not change while the call
runs; `seek` and `read` of the file object see what the file holds (a buffered reader of a regular file does).
-/

namespace Verif.Session

open Verif Verif.Gsf

/-- The answers to a sequence of `next()` calls, each with the options of its generator and the file as it is then.  When the position
is not modelled any more there are no further answers. -/
def follow : Hdr → Option Nat → List (Opts × Bytes) → List Pulled
  | _, none, _ => []
  | _, some _, [] => []
  | h, some p, (o, file) :: rest =>
    let r := pull o file h false p
    r.1 :: follow r.2.1 r.2.2 rest

/-- `with GSFDecoder(file_data=…) as dec:` when the file is `first`, then the calls (`gsf.py:1398-1406`). -/
def watch (first : Bytes) (calls : List (Opts × Bytes)) : Except Err (Hdr × List Pulled) :=
  match decodeFileHeaders false ⟨0, first⟩ 0 with
  | .error e => .error e
  | .ok (h, p) => .ok (h, follow h (some p) calls)

end Verif.Session

namespace Verif.Gsf.Follow

open Verif Verif.Gsf

/-! ## A turn over a part of a grain block -/

/-- What a grain's data is when the stream may end within it. -/
def dataIn (o : Opts) (s : Stream) (q : Nat) (d : Bytes) : Data :=
  if d = [] then .none
  else if o.defers then .deferred q d.length
  else if o.mode == .loadNever then .none
  else .bytes ((s.buf.drop (q - s.base)).take d.length)

/-- The block header of the data. -/
def grdtHead (g : Grain) : Bytes := (grdtBlk g).tb ++ encodeUint (grdtBlk g).size 4

/-- A grain block without its data. -/
def graiHead (major lid : Nat) (g : Grain) : Bytes :=
  ((graiBlk major lid g).tb ++ encodeUint (graiBlk major lid g).size 4) ++
    (encodeUint lid 2 ++ ((gbhdBlk major g).bytes ++ grdtHead g))

theorem grai_split (major lid : Nat) (g : Grain) : (graiBlk major lid g).bytes = graiHead major lid g ++ g.data.getD [] := by
  unfold graiHead grdtHead
  simp only [Blk.bytes]
  conv => lhs; rw [graiBlk]; simp only [mkBlk, blksBytes_cons, blksBytes_nil, Blk.bytes]
  simp only [grdtBlk, graiBlk, mkBlk, List.append_assoc, List.append_nil, blksBytes_cons, blksBytes_nil, Blk.bytes]

theorem grdt_head (o : Opts) {g : Grain} {s p} (hat : At s p (grdtHead g)) (hsz : 8 + (g.data.getD []).length < 2 ^ 32)
    (grai : Block) (hend : p + (8 + (g.data.getD []).length) ≤ grai.start + grai.size) :
    readGrdt o grai s p = .ok (dataIn o s (p + 8) (g.data.getD []), p + (8 + (g.data.getD []).length)) := by
  have hok : (grdtBlk g).Ok tGrdt := mkBlk_ok tc tne hsz
  have hc : grai.hasChild s p = .ok (true, p) := by
    rw [hasChild_eq, if_pos (by omega)]
  have he := enter_hdr (want := some tGrdt) (r := false) hat hok (.inr rfl)
  have hsize : (grdtBlk g).size = 8 + (g.data.getD []).length := rfl
  have hr : Block.remaining ⟨p, (grdtBlk g).size, tGrdt⟩ s (p + 8) = .ok (((g.data.getD []).length : Int), p + 8) := by
    unfold Block.remaining
    rw [hsize]
    congr 2
    simp only
    omega
  have hex : Block.endPos ⟨p, (grdtBlk g).size, tGrdt⟩ = p + (8 + (g.data.getD []).length) := by
    unfold Block.endPos
    rw [hsize]; simp only; omega
  unfold readGrdt
  rw [Rd.bind_of_ok hc, if_pos rfl, Rd.bind_of_ok he, Rd.bind_of_ok hr]
  unfold dataIn Opts.defers
  by_cases hd : g.data.getD [] = []
  · rw [if_pos hd, if_neg (by simp [hd])]
    simp only [Block.exit, Rd.bind_apply, Rd.seek_apply, Rd.pure_apply, hex]
  · have hpos : 0 < (g.data.getD []).length := List.length_pos_iff.2 hd
    rw [if_neg hd, if_pos (by omega)]
    by_cases hdf : (o.seekable && (o.mode == .alwaysDeferLoadIfPossible || o.mode == .alwaysLoadDeferIfPossible)) = true
    · rw [if_pos hdf, if_pos hdf]
      simp only [Block.exit, Rd.bind_apply, Rd.tell_apply, Rd.seek_apply, Rd.pure_apply, hex, Int.toNat_natCast]
    · rw [if_neg hdf, if_neg hdf]
      by_cases hn : (o.mode == .loadNever) = true
      · rw [if_pos hn, if_pos hn]
        simp only [Block.exit, Rd.bind_apply, Rd.seek_apply, Rd.pure_apply, hex]
      · rw [if_neg hn, if_neg hn, Int.toNat_natCast]
        simp only [readRaw_eq, Block.exit, Rd.bind_apply, Rd.seek_apply, Rd.pure_apply, hex]

theorem grai_len {major lid : Nat} {g : Grain} (hg : g.Ok major) :
    (graiBlk major lid g).size = 10 + (gbhdBlk major g).bytes.length + (8 + (g.data.getD []).length) ∧
      (graiBlk major lid g).Ok tGrai := by
  refine ⟨?_, (decoGrai_self (lid := lid) hg).ok⟩
  have hgl : (grdtBlk g).bytes.length = 8 + (g.data.getD []).length := mkBlk_length _ _ tl4
  unfold graiBlk mkBlk
  simp only [List.length_append, encodeUint_length, blksBytes_cons, blksBytes_nil, List.append_nil, hgl]
  omega

theorem head_len {major lid : Nat} {g : Grain} (hg : g.Ok major) :
    (graiHead major lid g).length = 10 + (gbhdBlk major g).bytes.length + 8 ∧
      (graiBlk major lid g).bytes.length = (graiHead major lid g).length + (g.data.getD []).length := by
  have h1 := grai_split major lid g
  have h2 := (grai_len (lid := lid) hg).2.length
  have h3 := (grai_len (lid := lid) hg).1
  have h4 := congrArg List.length h1
  rw [List.length_append] at h4
  have : (graiHead major lid g).length = 10 + (gbhdBlk major g).bytes.length + 8 := by omega
  exact ⟨this, h4⟩

/-- With everything but its data there, a grain is delivered or passed over. -/
theorem step_head (o : Opts) (h : Hdr) (p : Nat) {lid : Nat} (hl : lid < 2 ^ 16) {g : Grain} (hg : g.Ok h.major) {s}
    (hat : At s p (graiHead h.major lid g)) :
    grainsStep o h false s p =
      .ok (if o.drops lid then .next h false
        else .yield ⟨g.toMeta h.major, dataIn o s (p + (graiHead h.major lid g).length) (g.data.getD []), lid⟩,
        p + (graiBlk h.major lid g).bytes.length) := by
  obtain ⟨hsz, hok⟩ := grai_len (lid := lid) hg
  have hlen := hok.length
  have hhl := (head_len (lid := lid) hg).1
  have hl8 : ((graiBlk h.major lid g).tb ++ encodeUint (graiBlk h.major lid g).size 4).length = 8 := by simp [hok.tbLen]
  have hin : At s (p + 8) (encodeUint lid 2 ++ ((gbhdBlk h.major g).bytes ++ grdtHead g)) := by
    have := hat.right
    rwa [hl8] at this
  have hend : Block.endPos ⟨p, (graiBlk h.major lid g).size, tGrai⟩ = p + (graiBlk h.major lid g).bytes.length := by
    rw [hlen]; rfl
  unfold grainsStep
  rw [if_neg (by simp), Rd.bind_of_ok (enter_hdr hat.left hok (.inl rfl)), if_neg (by simp), if_neg (by simp only; omega)]
  rw [Rd.bind_of_ok (reads_uint (n := 2) (v := lid) (by omega) s _ hin.left)]
  unfold Opts.drops
  by_cases hdr : (o.localIds.any (fun ids => !ids.contains lid)) = true
  · rw [if_pos hdr, if_pos hdr]
    simp only [Block.exit, Rd.bind_apply, Rd.seek_apply, Rd.pure_apply, hend]
  · rw [if_neg hdr, if_neg hdr]
    have h1 := hin.right
    rw [Rd.bind_of_ok (gbhdBlock_read hg (decoGbhd_self hg) s _ h1.left)]
    have hdl : 8 + (g.data.getD []).length < 2 ^ 32 := by
      have := hok.sizeLt
      omega
    have hrd := grdt_head o h1.right hdl ⟨p, (graiBlk h.major lid g).size, tGrai⟩ (by
      simp only [encodeUint_length]
      omega)
    rw [Rd.bind_of_ok hrd]
    simp only [Block.exit, Rd.bind_apply, Rd.seek_apply, Rd.pure_apply, hend, encodeUint_length, hhl]
    have e : p + 8 + 2 + (gbhdBlk h.major g).bytes.length + 8 = p + (10 + (gbhdBlk h.major g).bytes.length + 8) := by omega
    rw [e]

theorem bind_ok_of {m : Rd α} {f : α → Rd β} {s p a q r} (h : (m >>= f) s p = .ok r) (h1 : m s p = .ok (a, q) ∨ m s p = .error .eof) :
    m s p = .ok (a, q) ∧ f a s q = .ok r := by
  rcases h1 with h1 | h1
  · rw [Rd.bind_of_ok h1] at h; exact ⟨h1, h⟩
  · rw [Rd.bind_of_error h1] at h; simp at h

/-- With a part of it there that does not reach the data, a grain that is wanted is not delivered. -/
theorem step_short (o : Opts) (h : Hdr) (p : Nat) {lid : Nat} (hl : lid < 2 ^ 16) {g : Grain} (hg : g.Ok h.major) {s}
    (hs : Short s p (graiHead h.major lid g) 0) (hf : p + 8 ≤ s.fin) :
    enter none false s p = .ok (⟨p, (graiBlk h.major lid g).size, tGrai⟩, p + 8) ∧
    (grainsStep o h false s p = .error .eof ∨
      (o.drops lid = true ∧ grainsStep o h false s p = .ok (.next h false, p + (graiBlk h.major lid g).bytes.length))) := by
  obtain ⟨hsz, hok⟩ := grai_len (lid := lid) hg
  have hhl := (head_len (lid := lid) hg).1
  have hl8 : ((graiBlk h.major lid g).tb ++ encodeUint (graiBlk h.major lid g).size 4).length = 8 := by simp [hok.tbLen]
  have hat8 : At s p ((graiBlk h.major lid g).tb ++ encodeUint (graiBlk h.major lid g).size 4) := by
    rcases hs.split with h1 | ⟨h1, -⟩
    · have := h1.fin
      omega
    · exact h1
  have hen := enter_hdr (want := none) (r := false) hat8 hok (.inl rfl)
  refine ⟨hen, ?_⟩
  -- the stream with the rest of the block
  let s' : Stream := ⟨s.base, s.buf.take (p - s.base) ++ graiHead h.major lid g⟩
  have hbase := hs.1
  have hfin : s.base + s.buf.length = s.fin := rfl
  have hlen : (s.buf.take (p - s.base)).length = p - s.base := by
    rw [List.length_take]
    unfold Stream.fin at hf
    omega
  have hcut : s'.cut s.buf.length = s := by
    obtain ⟨t, ht⟩ := hs.2.1
    have hle : (s.buf.drop (p - s.base)).length = s.buf.length - (p - s.base) := List.length_drop
    cases hsb : s with
    | mk base buf =>
      simp only [Stream.cut, s', hsb, Stream.mk.injEq, true_and] at hle ht ⊢
      rw [← ht, ← List.append_assoc, List.take_append_drop, List.take_left']
      rfl
  have hat' : At s' p (graiHead h.major lid g) := by
    refine ⟨hbase, ?_⟩
    show _ <+: (s.buf.take (p - s.base) ++ graiHead h.major lid g).drop (p - s.base)
    rw [List.drop_left' hlen]
    exact List.prefix_refl _
  have hfull := step_head o h p hl hg hat'
  have hb' : s'.base ≤ p := hbase
  rcases grainsStep_cut s.buf.length hb' hfull with ⟨st', hsc, hst⟩ | he
  · rw [hcut] at hst
    by_cases hdr : o.drops lid = true
    · rw [if_pos hdr] at hsc
      rcases hsc with rfl | ⟨it, d', h1, -⟩
      · exact .inr ⟨hdr, hst⟩
      · simp at h1
    · exfalso
      have hshort := hs.fin
      unfold grainsStep at hst
      rw [if_neg (by simp), Rd.bind_of_ok hen, if_neg (by simp), if_neg (by simp only; omega)] at hst
      have hin : At s' (p + 8) (encodeUint lid 2 ++ ((gbhdBlk h.major g).bytes ++ grdtHead g)) := by
        have := hat'.right
        rwa [hl8] at this
      have c1 := (readUint_mono 2).cut s.buf.length (show s'.base ≤ p + 8 by omega)
        (reads_uint (n := 2) (v := lid) (by omega) s' _ hin.left)
      rw [hcut] at c1
      obtain ⟨-, hst⟩ := bind_ok_of hst c1
      rw [if_neg (by unfold Opts.drops at hdr; exact hdr)] at hst
      have hin2 := hin.right
      rw [encodeUint_length] at hst hin2
      have c2 := (readGbhdBlock_mono h.major).cut s.buf.length (show s'.base ≤ p + 8 + 2 by omega)
        (gbhdBlock_read hg (decoGbhd_self hg) s' _ hin2.left)
      rw [hcut] at c2
      obtain ⟨-, hst⟩ := bind_ok_of hst c2
      obtain ⟨d, q, h1, -⟩ := Rd.bind_ok hst
      unfold readGrdt at h1
      have hc : Block.hasChild ⟨p, (graiBlk h.major lid g).size, tGrai⟩ s (p + 8 + 2 + (gbhdBlk h.major g).bytes.length) =
          .ok (true, p + 8 + 2 + (gbhdBlk h.major g).bytes.length) := by
        rw [hasChild_eq, if_pos (by simp only; omega)]
      rw [Rd.bind_of_ok hc, if_pos rfl] at h1
      obtain ⟨b, q2, h2, -⟩ := Rd.bind_ok h1
      have := enter_ok (by omega) h2
      omega
  · rw [hcut] at he
    exact .inl he

end Verif.Gsf.Follow
