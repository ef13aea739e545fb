import Verif.Bytes
import Verif.Utf8
import Verif.Gsf.Reader
import Verif.Gsf.Types
import Verif.Gsf.Decode
import Verif.Gsf.Encode
import Verif.Gsf.ReaderLemmas
import Verif.Gsf.Codec
import Verif.Gsf.Blocks
import Verif.Gsf.Layout
import Verif.Gsf.GrainRT
import Verif.Gsf.HeadRT
import Verif.Gsf.Loop
import Verif.Gsf.Whole
import Verif.Gsf.Trunc
import Verif.Props.Sample
import Verif.Props.C01
import Verif.Props.C02
import Verif.Gsf.Total
import Verif.Props.C03
import Verif.Props.C09
import Verif.Props.C10
import Verif.Props.C05
import Verif.Props.C07
import Verif.Gsf.Short
import Verif.Gsf.Group
import Verif.Props.C06
import Verif.Props.C20
import Verif.Props.C23
import Verif.Props.C26
import Verif.Gsf.Encoder
import Verif.Gsf.EncoderLemmas
import Verif.Gsf.EncoderLive
import Verif.Gsf.EncoderSync
import Verif.Props.C12
import Verif.Props.C14
import Verif.Gsf.Async
import Verif.Gsf.AsyncLemmas
import Verif.Props.C24
import Verif.IO.IOBytes
import Verif.Grain.Lazy
import Verif.Props.C35
import Verif.Props.C30
import Verif.Props.C19
import Verif.Grain.Views
import Verif.Grain.Meta
import Verif.Cog.Enums
import Verif.Cog.Sizes
import Verif.Props.C27
import Verif.Props.C29
import Verif.Props.C31
import Verif.Props.C34
import Verif.Grain.Json
import Verif.Grain.JsonRT
import Verif.Grain.Event
import Verif.Props.C33
import Verif.IO.AsyncBytes
import Verif.IO.Streams
import Verif.Props.C36
import Verif.Props.C37
import Verif.Wrap.Raw
import Verif.Props.C38
import Verif.Wrap.Adts
import Verif.Props.C39
import Verif.Wrap.Bits
import Verif.Wrap.H264
import Verif.Props.C40
import Verif.Props.C41
import Verif.Compare.Model
import Verif.Props.C42
import Verif.Props.C43
import Verif.Numpy.Table
import Verif.Numpy.Samples
import Verif.Numpy.Lemmas
import Verif.Numpy.Shape
import Verif.Props.C48
import Verif.Props.C49
import Verif.Props.C50Table
import Verif.Props.C50
import Verif.Pattern.Tone
import Verif.Props.C45
import Verif.Pattern.Video
import Verif.Pattern.VideoLemmas
import Verif.Pattern.Generator
import Verif.Props.C46
import Verif.Props.C47
import Verif.Gsf.Pipe
import Verif.Props.C51
import Verif.Props.C24Bytes
import Verif.Numpy.Arrays
import Verif.Props.C54
import Verif.Props.C55
import Verif.Grain.Times
import Verif.Props.C58
import Verif.Wrap.Tools
import Verif.Props.C52
import Verif.Props.C53
import Verif.Grain.Heap
import Verif.Props.C56
import Verif.Grain.Seqs
import Verif.Props.C57
import Verif.Wrap.Probe
import Verif.Props.C59
import Verif.Grain.Attrs
import Verif.Props.C60
import Verif.Compare.Psnr
import Verif.Props.C61
import Verif.Props.C62
import Verif.Props.C63
import Verif.Grain.New
import Verif.Props.C64
import Verif.Hypothesis.Strategies
import Verif.Props.C65
import Verif.Numpy.Colour
import Verif.Props.C66
import Verif.Grain.Pair
import Verif.Props.C67
import Verif.Gsf.Objects
import Verif.Props.C68
import Verif.Gsf.Concurrent
import Verif.Props.C69
import Verif.Gsf.Crash
import Verif.Props.C70
import Verif.Gsf.Easy
import Verif.Props.C71
import Verif.Numpy.Grains
import Verif.Props.C72
import Verif.Gsf.Session
import Verif.Props.C73
import Verif.Gsf.Alias
import Verif.Props.C74
import Verif.Compare.Objects
import Verif.Props.C75
import Verif.Compare.Report
import Verif.Props.C76
import Verif.Compare.Options
import Verif.Props.C77
import Verif.Props.C78
import Verif.Gsf.Copy
import Verif.Props.C79
import Verif.Gsf.Follow
import Verif.Props.C80
import Verif.Props.C81
import Verif.Props.C82
import Verif.Props.C81Async
import Verif.Props.C83
import Verif.Gsf.Waiting
import Verif.Props.C84
import Verif.Gsf.Document
import Verif.Gsf.DocLemmas
import Verif.Gsf.DocWrite
import Verif.Props.C85
import Verif.Conformance
import Verif.Props.C51Cut
import Verif.Gsf.AwaitEach
import Verif.Props.C86
import Verif.Compare.Matcher
import Verif.Compare.MatcherLemmas
import Verif.Props.C87
import Verif.Gsf.Lifetime
import Verif.Props.C88
import Verif.Gsf.GroupAsync
import Verif.Props.C23Async
import Verif.Numpy.Live
import Verif.Props.C89
import Verif.Grain.EventLive
import Verif.Props.C90
import Verif.Numpy.LiveAudio
import Verif.Props.C91
import Verif.Gsf.CopyLive
import Verif.Props.C92
import Verif.Compare.Text
import Verif.Props.C93
import Verif.Gsf.CopyAsync
import Verif.Props.C94
import Verif.Wrap.H264Grains
import Verif.Props.C95
import Verif.Wrap.Commands
import Verif.Props.C96
import Verif.Hypothesis.Events
import Verif.Props.C65Events
import Verif.Props.C82Tail
import Verif.Props.C85Version
import Verif.Props.C97
import Verif.Props.C86Tail
import Verif.Props.C50Size
import Verif.Props.C97Colours
import Verif.Props.C72Size
import Verif.Props.C29List
import Verif.Props.C39Values
