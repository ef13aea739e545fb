import Verif.Props.C72
import Verif.Props.C50Size

/-!
# C72: converted grains of any size

`C72_converted_partial` is about grains of even width and height, because conversions that change the chroma subsampling fail for others. Those that keep
it do not: within YUV of one subsampling and v210, and between RGB and YUV 4:4:4.
-/

namespace Verif.Props

open Verif.Numpy Verif.Attrs
open Verif.New (Times)

/-- **C72.** A grain of any width and height, converted to another format of the same subsampling: the conversion succeeds, the
new grain has the samples of the conversion of its frame, the source, times, rate, size and layout of the original, the derived flow, and is again sound. -/
theorem C72_any_size (lib : Lib) (hl : lib.Lawful) (ht : Times lib) (now : Int) (hn : 0 ≤ now) (u : Ids)
    (hu : ∀ f s, (u.v5 f s).length = 16) (env : Env) (p : Pic) (hp : Sound lib p) (s t : Nat × Model × Nat) (hs : s ∈ formats) (ht' : t ∈ formats)
    (hm : chromaOf s.2.1 = chromaOf t.2.1) (hf : p.frame.fmt = s.1) (hne : s.1 ≠ t.1)
    (flow : Bytes) (hfl : p.obj.attr lib "flow_id" = .ok (.uuid flow)) :
    ∃ q, p.convert lib now u env t.1 = .ok q ∧ Sound lib q ∧ convertFrame env 4 p.frame t.1 = some q.frame ∧
      q.obj.attr lib "cog_frame_format" = .ok (.enum t.1) ∧ (∀ name ∈ keeps, q.obj.attr lib name = p.obj.attr lib name) ∧
      q.obj.attr lib "flow_id" = .ok (.uuid (flowFor u flow t.1)) := by
  obtain ⟨g, g1, g2, g3, g4, g5⟩ := C50_any_size env p.frame 4 (Nat.le_refl 4) s t hs ht' hm hf hp.samples
  have hsup : supported t.1 = true := List.any_eq_true.mpr ⟨t, ht', by simp⟩
  obtain ⟨q, h1, h2, h3, -, h5, -, -, h8, h9⟩ := C72.converted_of hl ht hn u hu env hp hsup (by rw [hf]; exact hne) g1 g2 g3 g4 g5
  refine ⟨q, h1, h2, h3, ?_, h8, h9 flow hfl⟩
  rw [← h5]
  exact h2.format

/-- **C72.** Conversions of a grain of any size one after the other, to formats of one subsampling. -/
theorem C72_any_chain (lib : Lib) (hl : lib.Lawful) (ht : Times lib) (u : Ids) (hu : ∀ f s, (u.v5 f s).length = 16) (env : Env)
    (c : Nat × Nat) (fs : List (Int × Nat)) (hf : ∀ x ∈ fs, 0 ≤ x.1 ∧ ∃ m d, (x.2, m, d) ∈ formats ∧ chromaOf m = c) (p : Pic) (hp : Sound lib p)
    (hs : ∃ m d, (p.frame.fmt, m, d) ∈ formats ∧ chromaOf m = c) (flow : Bytes) (hfl : p.obj.attr lib "flow_id" = .ok (.uuid flow)) :
    ∃ q, p.converts lib u env fs = .ok q ∧ Sound lib q ∧ (∀ name ∈ keeps, q.obj.attr lib name = p.obj.attr lib name) ∧
      q.obj.attr lib "cog_frame_format" = .ok (.enum ((fs.map Prod.snd).getLast?.getD p.frame.fmt : Nat)) ∧
      q.obj.attr lib "flow_id" = .ok (.uuid (flowAfter u p.frame.fmt flow (fs.map Prod.snd))) := by
  induction fs generalizing p flow with
  | nil => exact ⟨p, rfl, hp, fun _ _ => rfl, hp.format, hfl⟩
  | cons x fs ih =>
    obtain ⟨now, f⟩ := x
    obtain ⟨hn, m', d', hff, hm'⟩ := hf (now, f) (by simp)
    have hrest : ∀ x ∈ fs, 0 ≤ x.1 ∧ ∃ m d, (x.2, m, d) ∈ formats ∧ chromaOf m = c := fun x hx => hf x (by simp [hx])
    by_cases hne : p.frame.fmt = f
    · obtain ⟨q, h1, h2, h3, h4, h5⟩ := ih hrest p hp hs flow hfl
      refine ⟨q, ?_, h2, h3, ?_, ?_⟩
      · subst hne
        simp only [Pic.converts, (C72_same lib now u env p hp).1]
        exact h1
      · rw [h4]
        simp only [List.map_cons, List.getLast?_cons, Option.getD_some, hne]
      · rw [h5]
        simp only [List.map_cons, flowAfter, hne, if_true]
    · obtain ⟨m, d, hd, hm⟩ := hs
      obtain ⟨q, h1, h2, -, h5, h8, h9⟩ := C72_any_size lib hl ht now hn u hu env p hp (p.frame.fmt, m, d) (f, m', d') hd hff (hm.trans hm'.symm) rfl hne flow hfl
      have h5 : q.frame.fmt = f := by
        have h := h2.format
        rw [h5] at h
        injection h with h
        injection h with h
        exact_mod_cast h.symm
      obtain ⟨r, r1, r2, r3, r4, r5⟩ := ih hrest q h2 (by rw [h5]; exact ⟨m', d', hff, hm'⟩) _ h9
      refine ⟨r, ?_, r2, ?_, ?_, ?_⟩
      · simp only [Pic.converts, h1]
        exact r1
      · intro name hname
        rw [r3 name hname, h8 name hname]
      · rw [r4, h5]
        simp only [List.map_cons, List.getLast?_cons, Option.getD_some]
      · rw [r5, h5]
        simp only [List.map_cons, flowAfter, if_neg (Ne.symm hne)]

/-- A picture of one column and one row. -/
def C72_tiny : Pic :=
  let args : New.Args := [("src_id", .uuid (List.replicate 16 1)), ("flow_id", .uuid (List.replicate 16 2)), ("origin_timestamp", .ts 5),
    ("sync_timestamp", .ts 6), ("cog_frame_format", .enum Cog.FrameFormat.S16_444_12BIT_RGB), ("width", .int 1), ("height", .int 1)]
  let frame : Frame := ⟨Cog.FrameFormat.S16_444_12BIT_RGB, 1, 1, .planes [[4000]] [[8]] [[7]]⟩
  match New.make C64_lib 7 .video args none with
  | .ok m => ⟨Objects.ofMade .video args m, frame⟩
  | .error _ => ⟨Objects.ofMade .video [] ⟨fun _ => none, [], none⟩, frame⟩

theorem C72_tiny_sound : Sound C64_lib C72_tiny := by
  have ok : ∀ {x : Except AErr A} {v : A}, x.toOption = some v → x = .ok v := by
    intro x v h
    cases x with
    | error e => cases h
    | ok w => cases h; rfl
  exact {
    cls := by decide +kernel
    type := ok (by decide +kernel)
    source := ⟨List.replicate 16 1, by decide, ok (by decide +kernel)⟩
    flow := ⟨List.replicate 16 2, by decide, ok (by decide +kernel)⟩
    origin := ⟨5, by decide, ok (by decide +kernel)⟩
    sync := ⟨6, by decide, ok (by decide +kernel)⟩
    rate := ⟨25, ok (by decide +kernel)⟩
    duration := ⟨1 / 25, ok (by decide +kernel)⟩
    format := ok (by decide +kernel)
    width := ok (by decide +kernel)
    height := ok (by decide +kernel)
    layout := ⟨Cog.FrameLayout.UNKNOWN, by decide +kernel, ok (by decide +kernel)⟩
    samples := by
      show WellFormed ⟨Cog.FrameFormat.S16_444_12BIT_RGB, 1, 1, .planes [[4000]] [[8]] [[7]]⟩
      unfold WellFormed
      rw [if_neg (by decide)]
      refine ⟨_, _, _, rfl, ?_, ?_, ?_⟩ <;> (constructor <;> decide) }

/-- Its size is odd, and RGB has the subsampling of YUV 4:4:4. -/
example : C72_tiny.frame.width % 2 = 1 ∧ C72_tiny.frame.height % 2 = 1 ∧ C72_tiny.frame.fmt = Cog.FrameFormat.S16_444_12BIT_RGB ∧
    (Cog.FrameFormat.S16_444_12BIT_RGB, Model.rgb, 12) ∈ formats ∧ (Cog.FrameFormat.U8_444, Model.yuv444, 8) ∈ formats ∧ chromaOf .rgb = chromaOf .yuv444 := by
  decide +kernel

end Verif.Props
