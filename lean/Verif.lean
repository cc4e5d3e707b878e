import Verif.Base.Go
import Verif.Compression.Props
import Verif.Compression.Twice
import Verif.Compression.Props2
import Verif.BlockCache.Props
import Verif.Flags.Props
import Verif.Stream.Props3
import Verif.Fat8.Props3
import Verif.UnixV6.Props
import Verif.Disks.Props
import Verif.Disks.Props2
import Verif.Fat.Props2
import Verif.Driver.Props17
import Verif.Stream.Frame
import Verif.Driver.Recording
import Verif.Driver.Props18
import Verif.Stream.FrameLen
import Verif.Driver.Props19
import Verif.Driver.Props20
import Verif.Driver.Props21
import Verif.Cmd.Props
import Verif.Sql.Props
import Verif.BlockCache.Props2
import Verif.BlockCache.Slices
import Verif.BlockCache.SlicesSpec
import Verif.BlockCache.SlicesLemmas
import Verif.BlockCache.Props3
import Verif.BlockCache.Props4
import Verif.BlockCache.Props5
import Verif.Testing.Model
import Verif.Testing.Lemmas
import Verif.Testing.Props
import Verif.Driver.Props22
import Verif.Driver.Props23
import Verif.Fat8.Names
import Verif.Fat8.Props4
import Verif.Fat8.Props5
import Verif.Fat8.Crash
import Verif.Fat8.Props6
import Verif.Fat8.Props7
import Verif.Fat8.Props8
import Verif.Fat.Props3
import Verif.Fat.Props4
import Verif.Fat.Props5
import Verif.Fat.Props6
import Verif.Driver.History
import Verif.Driver.Lifetimes
import Verif.Driver.Props24
import Verif.Driver.Props25
import Verif.Stream.Twin
import Verif.Stream.Props4
import Verif.Driver.Framing
import Verif.Driver.Props26
import Verif.Stream.Sim
import Verif.Driver.Isolation
import Verif.Driver.Props27
import Verif.Driver.Props28
import Verif.Fat.History
import Verif.Fat.Props7
import Verif.Driver.MountFlags
import Verif.Driver.Props29
import Verif.Driver.Props30
import Verif.Driver.Props31
import Verif.Stream.Copy
import Verif.Stream.CopyLemmas
import Verif.Stream.Props5
import Verif.Stream.Stored
import Verif.Stream.Props6
import Verif.Stream.Negative
import Verif.Stream.Props7
import Verif.Stream.SelfCopy
import Verif.Stream.Props8
import Verif.BlockCache.Logged
import Verif.BlockCache.Blank
import Verif.BlockCache.Props6
import Verif.BlockCache.Props7
import Verif.Sql.Props2
import Verif.Stream.Fixed
import Verif.Stream.Props9
import Verif.Stream.Machine
import Verif.Stream.MachineLemmas
import Verif.Stream.Props10
import Verif.Stream.Storage
import Verif.Stream.StorageLemmas
import Verif.Stream.Props11
import Verif.Fat8.Props9
import Verif.Fat8.Props10
import Verif.Fat8.Props11
import Verif.Fat8.Machine
import Verif.Fat8.Props12
import Verif.Fat8.Props13
import Verif.Compression.Cut
import Verif.Compression.Props3
import Verif.Cmd.Props2
import Verif.Stream.Props12
import Verif.Stream.Clients
import Verif.Stream.Props13
import Verif.Stream.Props14
import Verif.Stream.Retry
import Verif.Stream.Props15
import Verif.Stream.Props16
import Verif.Driver.Props32
import Verif.Driver.Props33
import Verif.Driver.Props34
import Verif.Driver.Props35
