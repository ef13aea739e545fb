import Verif.Gsf.Trunc

/-!
# A sample file used by the non-vacuity examples
-/

namespace Verif.Props

open Verif Verif.Gsf

def u (n : UInt8) : Bytes := List.replicate 16 n

/-- A time label with an emoji in its tag and a drop-frame rate. -/
def label1 : TimeLabel := ⟨['é', '😀'], 107892, 30000, 1001, true⟩

def gEmpty : Grain := ⟨u 1, u 2, -5, 1000000000, 25, (1 / 25 : Rat), [], .empty, 0, none⟩

def gVideo : Grain :=
  ⟨u 1, u 2, -1500000000, 281474976710655999999999, 25, (1001 / 30000 : Rat), [label1, ⟨[], 1, 25, 1, false⟩],
   .video ⟨0x2805, 0, 4, 2, 0, some (16 / 9 : Rat), none, [⟨4, 2, 8, 16, 0⟩, ⟨2, 2, 4, 8, 16⟩, ⟨2, 2, 4, 8, 24⟩]⟩,
   5, some [1, 2, 3, 4, 5]⟩

def gCoded : Grain :=
  ⟨u 3, u 4, 7, 8, 50, (1 / 50 : Rat), [],
   .codedVideo ⟨0x0200, 1, 1920, 1080, 1920, 1088, some false, some (-2), some [0, 10, 4000000000]⟩,
   3, some [0, 0, 1]⟩

def gCodedNone : Grain :=
  ⟨u 3, u 4, 7, 8, 50, (1 / 50 : Rat), [], .codedVideo ⟨0x0200, 1, 1920, 1080, 1920, 1088, none, none, none⟩,
   1, some [9]⟩

def gAudio : Grain :=
  ⟨u 3, u 4, 7, 8, 0, 0, [], .audio ⟨10, 65535, 1920, 48000⟩, 2, some [255, 0]⟩

def gCodedAudio : Grain :=
  ⟨u 3, u 4, 7, 8, 50, (1 / 50 : Rat), [], .codedAudio ⟨0x200, 2, 1024, 100, 3, 48000⟩, 0, none⟩

def gEvent : Grain :=
  ⟨u 3, u 4, 7, 8, 50, (1 / 50 : Rat), [], .event, 2, some [123, 125]⟩

/-- "hello" -/
def hello : List Char := ['h', 'e', 'l', 'l', 'o']

def sampleHead : HeadIn :=
  ⟨u 9, ⟨2024, 2, 29, 23, 59, 59⟩,
   [⟨1, u 10, 4, some ⟨u 1, u 2, hello, [123, 125]⟩, [(hello, []), (['é'], hello)]⟩,
    ⟨300, u 11, -1, none, []⟩],
   [(['k'], ['v'])]⟩

/-- Every grain type, two segments, flow metadata, tags at both levels. -/
def sample : FileSpec :=
  ⟨9, 0, sampleHead, [(1, gVideo), (300, gAudio), (1, gEmpty), (1, gCoded), (1, gCodedNone), (300, gCodedAudio),
    (300, gEvent)]⟩

theorem sample_ok : sample.Ok := by decide +kernel

/-- The same contents in version 7, where only non-negative timestamps can be written. -/
def sample7 : FileSpec := ⟨7, 0, sampleHead, [(1, gCoded), (300, gAudio)]⟩

theorem sample7_ok : sample7.Ok := by decide +kernel

/-- A block with an unknown tag (`"xtra"`) and three bytes in it. -/
def junk : Blk := mkBlk ['x', 't', 'r', 'a'] [1, 2, 3]

theorem junk_ok : junk.Ok ['x', 't', 'r', 'a'] := mkBlk_ok (by decide) (by decide) (by decide)

end Verif.Props
