import Verif.Base.Rust
import Verif.Model.Image
import Verif.Model.Buffer
import Verif.Model.GenericOps
import Verif.Model.ImageOps
import Verif.Model.Affine
import Verif.Proofs.Loops
import Verif.Proofs.Buffer
import Verif.Proofs.GenericOps
import Verif.Props.Buffer
import Verif.Props.Generic
import Verif.Props.Overlay
import Verif.Spec.Affine
import Verif.Proofs.Affine
import Verif.Props.Affine
import Verif.Model.Color
import Verif.Spec.Color
import Verif.Proofs.Color
import Verif.Props.Color
import Verif.Props.ColorOps
import Verif.Base.Bytes
import Verif.Model.Metadata
import Verif.Model.Dynamic
import Verif.Props.Metadata
import Verif.Props.Dynamic
import Verif.Model.Flat
import Verif.Props.Flat
import Verif.Model.Limits
import Verif.Model.Format
import Verif.Model.Delay
import Verif.Props.Limits
import Verif.Props.Format
import Verif.Props.Delay
import Verif.Model.Utils
import Verif.Props.Utils
import Verif.Model.LoadRect
import Verif.Props.LoadRect
import Verif.Base.Cursor
import Verif.Model.Farbfeld
import Verif.Props.Farbfeld
import Verif.Model.Tga
import Verif.Proofs.Outcome
import Verif.Proofs.Tga
import Verif.Props.Tga
import Verif.Props.Blend
import Verif.Props.FloatConv
import Verif.Props.Resize
import Verif.Props.AutoBreak
import Verif.Props.Pnm
import Verif.Props.PnmAscii
import Verif.Props.PnmTrunc
import Verif.Props.PnmTotal
import Verif.Props.PnmMore
import Verif.Model.Bmp
import Verif.Proofs.Bmp
import Verif.Proofs.BmpRows
import Verif.Proofs.Prefix
import Verif.Props.BmpTotal
import Verif.Props.BmpRle
import Verif.Props.BmpExamples
import Verif.Props.BmpRoundtrip
import Verif.Props.BmpTrunc
import Verif.Props.BmpIndexed
import Verif.Model.Hdr
import Verif.Proofs.Hdr
import Verif.Props.HdrRoundtrip
import Verif.Props.HdrTotal
import Verif.Props.HdrTrunc
import Verif.Props.HdrFloat
import Verif.Model.DecoderToImage
import Verif.Props.DecoderToImage
import Verif.Model.JpegEntropy
import Verif.Model.JpegDct
import Verif.Model.JpegEncoder
import Verif.Spec.Jpeg
import Verif.Spec.Dct
import Verif.Spec.JpegFile
import Verif.Props.JpegHuffman
import Verif.Props.JpegFile
import Verif.Props.JpegFindings
import Verif.Model.Dxt
import Verif.Spec.S3tc
import Verif.Spec.Dds
import Verif.Proofs.Dxt
import Verif.Proofs.Trunc
import Verif.Props.Dds
import Verif.Props.DdsFile
import Verif.Model.Ico
import Verif.Spec.Ico
import Verif.Proofs.Ico
import Verif.Props.Ico
import Verif.Props.IcoEncode
import Verif.Spec.Bmp
import Verif.Proofs.BmpPixels
import Verif.Proofs.BmpHeader
import Verif.Props.BmpPixels
import Verif.Model.Gif
import Verif.Spec.Gif
import Verif.Proofs.Gif
import Verif.Props.Gif
import Verif.Props.GifFile
import Verif.Model.Apng
import Verif.Spec.Apng
import Verif.Proofs.Apng
import Verif.Props.Apng
import Verif.Model.Png
import Verif.Props.Png
import Verif.Model.Sample
import Verif.Spec.Sample
import Verif.Proofs.FloatSigned
import Verif.Proofs.Sample
import Verif.Proofs.SampleTaps
import Verif.Proofs.SampleMean
import Verif.Props.SampleNearest
import Verif.Proofs.SamplePos
import Verif.Proofs.SampleWindow
import Verif.Proofs.SampleTwo
import Verif.Proofs.SampleKernel
import Verif.Proofs.SampleTriangle
import Verif.Proofs.SampleGauss
import Verif.Props.SampleLinear
import Verif.Proofs.SampleBetween
import Verif.Props.SampleBetween
import Verif.Props.Blur
import Verif.Props.SamplePoint
import Verif.Props.SampleBilinear
import Verif.Props.Filter3x3
import Verif.Proofs.Thumbnail
import Verif.Props.Thumbnail
import Verif.Model.FastBlur
import Verif.Spec.FastBlur
import Verif.Proofs.FastBlur
import Verif.Props.FastBlur
import Verif.Spec.Unsharpen
import Verif.Props.Unsharpen
import Verif.Model.Avif
import Verif.Spec.Avif
import Verif.Proofs.Avif
import Verif.Proofs.AvifColour
import Verif.Proofs.AvifPlanes
import Verif.Proofs.Avif420
import Verif.Proofs.AvifFile
import Verif.Props.Avif
import Verif.Props.AvifTotal
import Verif.Model.ColorAdjust
import Verif.Spec.Hue
import Verif.Proofs.Contrast
import Verif.Proofs.Hue
import Verif.Proofs.Gradient
import Verif.Props.Contrast
import Verif.Props.Hue
import Verif.Props.Gradient
import Verif.Model.ParIter
import Verif.Proofs.ParIter
import Verif.Props.ParIter
import Verif.Model.Reader
import Verif.Props.Reader
import Verif.Model.OpenExr
import Verif.Props.OpenExr
import Verif.Model.Tiff
import Verif.Props.Tiff
import Verif.Model.Pcx
import Verif.Props.Pcx
import Verif.Model.Webp
import Verif.Props.Webp
import Verif.Model.JpegDecoder
import Verif.Model.CrateEncoders
import Verif.Props.CrateCodecs
import Verif.Model.Boxed
import Verif.Props.Boxed
import Verif.Model.Save
import Verif.Proofs.Save
import Verif.Props.Save
import Verif.Model.DynOps
import Verif.Proofs.DynOps
import Verif.Props.DynOps
import Verif.Model.BufferIter
import Verif.Spec.BufferIter
import Verif.Proofs.BufferIter
import Verif.Props.BufferIter
import Verif.Props.EncoderTotal
import Verif.Spec.Tga
import Verif.Props.TgaPixels
import Verif.Spec.Hdr
import Verif.Proofs.HdrScan
import Verif.Proofs.HdrHeader
import Verif.Props.HdrPixels
import Verif.Props.PnmFile
import Verif.Props.PamFile
import Verif.Model.BmpRect
import Verif.Props.BmpRect
import Verif.Props.Filter3x3Frac
import Verif.Spec.JpegSamples
import Verif.Proofs.DctInverse
import Verif.Props.JpegSamples
import Verif.Proofs.SampleFloat
import Verif.Props.SampleFloat
import Verif.Model.FloatImage
import Verif.Proofs.FloatImage
import Verif.Props.FloatImage
import Verif.Proofs.FloatBlend
import Verif.Props.FloatBlend
import Verif.Model.FloatThumbnail
import Verif.Proofs.FloatThumbnail
import Verif.Props.FloatThumbnail
import Verif.Model.FloatFilter
import Verif.Props.FloatUnsharpen
import Verif.Proofs.FastBlurFloat
import Verif.Props.FastBlurFloat
import Verif.Props.Filter3x3Float
import Verif.Spec.SampleCubic
import Verif.Proofs.SampleCubic
import Verif.Proofs.SampleSigned
import Verif.Proofs.SampleLobes
import Verif.Proofs.SampleSignedPicture
import Verif.Props.SampleCubic
import Verif.Spec.SampleLanczos
import Verif.Proofs.Lanczos
import Verif.Proofs.SampleLanczos
import Verif.Proofs.SampleLanczosAxis
import Verif.Props.SampleLanczos
import Verif.Model.DynamicNew
import Verif.Props.DynamicNew
import Verif.Model.GifFrames
import Verif.Props.GifFrames
import Verif.Props.FloatDyn
import Verif.Props.FlatMut
import Verif.Props.DynBlend
import Verif.Props.DynView
import Verif.Props.PixelOps
import Verif.Props.ReadImage
import Verif.Props.ViewBounds
import Verif.Props.WriteImage
import Verif.Props.BufferEq
